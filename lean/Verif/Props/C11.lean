import Verif.Lemmas.Stsc

/-!
# C11 — recording chunks keeps one table entry per change and survives a write/parse cycle
-/

namespace Verif.Stsc

/-- Record chunks number `k + 1`, `k + 2`, ... with the given sample counts and descriptions. -/
def record : List StscEntry → Nat → List (Nat × Nat) → List StscEntry
  | es, _, [] => es
  | es, k, (spc, desc) :: cs => record (setEntry es (k + 1) spc desc) (k + 1) cs

/-- Adjacent entries differ in samples per chunk or description. -/
def NoEqualNeighbours (es : List StscEntry) : Prop :=
  ∀ (i : Nat) (a b : StscEntry), es[i]? = some a → es[i + 1]? = some b →
    ¬ (a.spc = b.spc ∧ a.desc = b.desc)

theorem chunkRuns_snoc : ∀ (es : List StscEntry) (e : StscEntry) (N : Nat),
    chunkRuns (es ++ [e]) N = chunkRuns es (e.first - 1) ++ [(N + 1 - e.first, (e.spc, e.desc))] ∨
    e.first = 0 := by
  intro es e N
  by_cases h0 : e.first = 0
  · exact Or.inr h0
  left
  induction es with
  | nil => rfl
  | cons p es ih =>
    cases es with
    | nil =>
      simp only [List.cons_append, List.nil_append, chunkRuns]
      congr 2
      omega
    | cons q es =>
      simp only [List.cons_append] at ih ⊢
      rw [chunkRuns, ih, chunkRuns]
      simp

theorem chunksOf_grow : ∀ (es : List StscEntry) (last : StscEntry) (N : Nat), es.getLast? = some last →
    last.first ≤ N + 1 → chunksOf es (N + 1) = chunksOf es N ++ [(last.spc, last.desc)] := by
  intro es
  induction es with
  | nil => intro last N h; simp at h
  | cons p es ih =>
    intro last N h hl
    cases es with
    | nil =>
      simp only [List.getLast?_singleton, Option.some.injEq] at h
      subst h
      simp only [chunksOf, chunkRuns, expand_cons, expand_nil, List.append_nil]
      rw [show N + 1 + 1 - p.first = (N + 1 - p.first) + 1 by omega, List.replicate_succ']
    | cons q es =>
      have := ih last N (by simpa [List.getLast?_cons] using h) hl
      simp only [chunksOf, chunkRuns, expand_cons] at this ⊢
      rw [this]; simp

/-- Everything the table satisfies after recording `N` chunks. -/
structure Recorded (es : List StscEntry) (cs : List (Nat × Nat)) : Prop where
  chunks : chunksOf es cs.length = cs
  noEq : NoEqualNeighbours es
  wf : (∀ c ∈ cs, 0 < c.1) → StscWF es cs.length
  firsts : ∀ e ∈ es, 1 ≤ e.first ∧ e.first ≤ cs.length
  ents : ∀ e ∈ es, (e.spc, e.desc) ∈ cs

theorem getElem?_snoc {α : Type u} {l : List α} {x y : α} {i : Nat} (h : (l ++ [x])[i]? = some y) :
    l[i]? = some y ∨ (i = l.length ∧ x = y) := by
  by_cases hi : i < l.length
  · rw [List.getElem?_append_left hi] at h; exact Or.inl h
  · rw [List.getElem?_append_right (by omega)] at h
    have : i - l.length = 0 := by
      have := (List.getElem?_eq_some_iff.mp h).1
      simp at this; omega
    rw [this] at h
    simp at h
    exact Or.inr ⟨by omega, h⟩

theorem recorded_step {es : List StscEntry} {cs : List (Nat × Nat)} (h : Recorded es cs)
    (spc desc : Nat) : Recorded (setEntry es (cs.length + 1) spc desc) (cs ++ [(spc, desc)]) := by
  have new : (∀ last, es.getLast? = some last → ¬ (last.spc = spc ∧ last.desc = desc)) →
      Recorded (es ++ [⟨cs.length + 1, spc, desc⟩]) (cs ++ [(spc, desc)]) := by
    intro hd
    have hlastget : ∀ (i : Nat) (a : StscEntry), es[i]? = some a → i + 1 = es.length →
        es.getLast? = some a := by
      intro i a ha hi
      rw [List.getLast?_eq_getElem?, show es.length - 1 = i by omega]; exact ha
    refine ⟨?_, ?_, ?_, ?_, ?_⟩
    · rcases chunkRuns_snoc es ⟨cs.length + 1, spc, desc⟩ (cs.length + 1) with e | e
      · unfold chunksOf
        rw [List.length_append, List.length_singleton, e, expand_append]
        have := h.chunks
        unfold chunksOf at this
        simp [this]
      · simp at e
    · intro i a b ha hb
      rcases getElem?_snoc hb with hb | ⟨hbl, rfl⟩
      · rcases getElem?_snoc ha with ha | ⟨ha, rfl⟩
        · exact h.noEq i a b ha hb
        · have := (List.getElem?_eq_some_iff.mp hb).1; omega
      · rcases getElem?_snoc ha with ha | ⟨ha, rfl⟩
        · exact hd a (hlastget i a ha hbl)
        · omega
    · intro hpos
      have hpos' : ∀ c ∈ cs, 0 < c.1 := fun c hc => hpos c (by simp [hc])
      have hwf := h.wf hpos'
      refine ⟨?_, ?_, ?_, ?_⟩
      · intro e he
        rcases getElem?_snoc he with he | ⟨hel, rfl⟩
        · exact hwf.head e he
        · have : es = [] := List.length_eq_zero_iff.mp hel.symm
          subst this
          have hc := h.chunks
          simp [chunksOf, chunkRuns] at hc
          simp [hc]
      · intro i a b ha hb
        rcases getElem?_snoc hb with hb | ⟨hbl, rfl⟩
        · rcases getElem?_snoc ha with ha | ⟨ha, rfl⟩
          · exact hwf.incr i a b ha hb
          · have := (List.getElem?_eq_some_iff.mp hb).1; omega
        · rcases getElem?_snoc ha with ha | ⟨ha, rfl⟩
          · have := (h.firsts a (List.mem_of_getElem? ha)).2
            simp only []; omega
          · omega
      · intro e he
        rcases List.mem_append.mp he with he | he
        · have := (h.firsts e he).2; simp; omega
        · simp at he; subst he; simp
      · intro e he
        rcases List.mem_append.mp he with he | he
        · exact hwf.spc e he
        · simp at he; subst he; exact hpos (spc, desc) (by simp)
    · intro e he
      rcases List.mem_append.mp he with he | he
      · have := h.firsts e he; simp; omega
      · simp at he; subst he; simp
    · intro e he
      rcases List.mem_append.mp he with he | he
      · have := h.ents e he; simp [this]
      · simp at he; subst he; simp
  unfold setEntry
  cases hl : es.getLast? with
  | none => exact new (by simp [hl])
  | some last =>
    simp only []
    split
    · next heq =>
      have hmem := List.mem_of_getLast? hl
      have hf := h.firsts last hmem
      refine ⟨?_, h.noEq, ?_, ?_, ?_⟩
      · have := chunksOf_grow es last cs.length hl (by omega)
        rw [List.length_append, List.length_singleton, this, h.chunks, heq.1, heq.2]
      · intro hpos
        have hwf := h.wf fun c hc => hpos c (by simp [hc])
        exact ⟨hwf.head, hwf.incr, fun e he => by have := hwf.last e he; simp; omega, hwf.spc⟩
      · intro e he; have := h.firsts e he; simp; omega
      · intro e he; have := h.ents e he; simp [this]
    · next hne => exact new (by intro l hl'; rw [hl] at hl'; injection hl' with e; subst e; exact hne)

theorem recorded_all : ∀ (cs' : List (Nat × Nat)) (es : List StscEntry) (cs : List (Nat × Nat)), Recorded es cs →
    Recorded (record es cs.length cs') (cs ++ cs') := by
  intro cs'
  induction cs' with
  | nil => intro es cs h; simpa [record] using h
  | cons c cs' ih =>
    intro es cs h
    have := ih _ _ (recorded_step h c.1 c.2)
    simpa [record] using this

theorem recorded (cs : List (Nat × Nat)) : Recorded (record [] 0 cs) cs := by
  have := recorded_all cs [] [] ⟨rfl, by intro i a b ha; simp at ha,
    fun _ => ⟨by simp, by simp, by simp, by simp⟩, by simp, by simp⟩
  simpa using this

/-- Recording chunks `1, 2, 3, …` in a fresh table gives a table that stands for exactly those
chunks, has no two equal neighbours, and is well-formed (so that C09 applies to it) when no chunk
is empty. -/
theorem c11_record_chunks (cs : List (Nat × Nat)) :
    chunksOf (record [] 0 cs) cs.length = cs ∧ NoEqualNeighbours (record [] 0 cs) ∧
    ((∀ c ∈ cs, 0 < c.1) → StscWF (record [] 0 cs) cs.length) :=
  ⟨(recorded cs).chunks, (recorded cs).noEq, (recorded cs).wf⟩

example : record [] 0 [(3, 1), (3, 1), (2, 1), (2, 1), (2, 2), (3, 1)] =
    [⟨1, 3, 1⟩, ⟨3, 2, 1⟩, ⟨5, 2, 2⟩, ⟨6, 3, 1⟩] := by decide

/-- The layout of the box in the standard. -/
def layout (version flags : Nat) (es : List StscEntry) : Bytes :=
  fullBox (fcc 's' 't' 's' 'c') version flags
    (be 4 es.length ++ es.flatMap fun e => be 4 e.first ++ (be 4 e.spc ++ be 4 e.desc))

theorem parses_entries : ∀ (es es0 : List StscEntry), NoEqualNeighbours (es0 ++ es) →
    (∀ e ∈ es, e.first < 4294967296 ∧ e.spc < 4294967296 ∧ e.desc < 4294967296) →
    Parses (parseEntries es.length es0)
      (es.flatMap fun e => be 4 e.first ++ (be 4 e.spc ++ be 4 e.desc)) (es0 ++ es) := by
  intro es
  induction es with
  | nil => intro es0 _ _; simpa [parseEntries] using parses_pure es0
  | cons e es ih =>
    intro es0 hne hb
    obtain ⟨b1, b2, b3⟩ := hb e (by simp)
    have hset : setEntry es0 e.first e.spc e.desc = es0 ++ [e] := by
      unfold setEntry
      cases hl : es0.getLast? with
      | none => rfl
      | some last =>
        simp only []
        rw [if_neg]
        have hlen : 0 < es0.length := by
          cases es0 with
          | nil => simp at hl
          | cons x y => simp
        refine hne (es0.length - 1) last e ?_ ?_
        · rw [List.getElem?_append_left (by omega), ← List.getLast?_eq_getElem?]; exact hl
        · rw [List.getElem?_append_right (by omega)]
          simp [show es0.length - 1 + 1 - es0.length = 0 by omega]
    have := ih (es0 ++ [e]) (by simpa using hne) (fun x hx => hb x (by simp [hx]))
    rw [← hset] at this
    simp only [List.length_cons, parseEntries, List.flatMap_cons, List.append_assoc]
    refine (parses_get32' b1).bind ((parses_get32' b2).bind ((parses_get32' b3).bind ?_))
    rw [hset] at this ⊢
    simpa using this

/-- Any table without equal neighbours is written in the standard layout with exactly the computed
size and parsed back unchanged. -/
theorem c11_stsc_round_trip (version flags : Nat) (es : List StscEntry)
    (hv : version < 256) (hf : flags < 16777216) (hn : es.length < 357913940)
    (hne : NoEqualNeighbours es)
    (hes : ∀ e ∈ es, e.first < 4294967296 ∧ e.spc < 4294967296 ∧ e.desc < 4294967296) :
    BoxRoundTrip (calcSize es) (serialize version flags es) parseBody ((version, flags), es)
      (layout version flags es) := by
  have hlen : (es.flatMap fun e => be 4 e.first ++ (be 4 e.spc ++ be 4 e.desc)).length = 12 * es.length :=
    flatMap_length_const es (by simp)
  have hsz : calcSize es = 16 + 12 * es.length := by unfold calcSize; omega
  refine BoxRoundTrip.ofFull ?_ ?_ ?_ (by omega) (by decide) (by decide)
  · exact (emits_put32 _).then
      (Emits.each es fun e _ => (emits_put32 e.first).seq ((emits_put32 e.spc).seq (emits_put32 e.desc))).thenAssert
  · apply Parses.at
    refine (parses_versionFlags hv hf).bind ((parses_get32' (by omega)).bind (Parses.bind_nil ?_ (parses_pure _)))
    have := parses_entries es [] (by simpa using hne) hes
    simpa using this
  · simp only [List.length_append, be_length, hlen]; omega

/-- The table made by recording chunks survives being written and parsed. -/
theorem c11_recorded_round_trip (version flags : Nat) (cs : List (Nat × Nat))
    (hv : version < 256) (hf : flags < 16777216) (hn : cs.length < 357913940)
    (hcs : ∀ c ∈ cs, c.1 < 4294967296 ∧ c.2 < 4294967296) :
    BoxRoundTrip (calcSize (record [] 0 cs)) (serialize version flags (record [] 0 cs)) parseBody
      ((version, flags), record [] 0 cs) (layout version flags (record [] 0 cs)) := by
  have h := recorded cs
  have hlen : ∀ (cs : List (Nat × Nat)) (es : List StscEntry) (k : Nat),
      (record es k cs).length ≤ es.length + cs.length := by
    intro cs
    induction cs with
    | nil => intro es k; simp [record]
    | cons c cs ih =>
      intro es k
      have h1 := ih (setEntry es (k + 1) c.1 c.2) (k + 1)
      have h2 : (setEntry es (k + 1) c.1 c.2).length ≤ es.length + 1 := by
        unfold setEntry; split
        · split <;> simp
        · simp
      simp only [record, List.length_cons]
      omega
  refine c11_stsc_round_trip version flags _ hv hf ?_ h.noEq ?_
  · have := hlen cs [] 0; simp at this; omega
  · intro e he
    have h1 := h.firsts e he
    have h2 := hcs _ (h.ents e he)
    exact ⟨by omega, h2⟩

example : runW (calcSize [⟨1, 3, 1⟩, ⟨3, 2, 1⟩]) (serialize 0 0 [⟨1, 3, 1⟩, ⟨3, 2, 1⟩]) =
    .ok [0, 0, 0, 40, 0x73, 0x74, 0x73, 0x63, 0, 0, 0, 0, 0, 0, 0, 2,
      0, 0, 0, 1, 0, 0, 0, 3, 0, 0, 0, 1, 0, 0, 0, 3, 0, 0, 0, 2, 0, 0, 0, 1] := by decide

end Verif.Stsc
