import Verif.Model.Sgpd
import Verif.Lemmas.Box

/-!
# C21 — sample group descriptions keep the index they were given
# C46 — sample group descriptions survive being written and parsed
-/

namespace Verif.Sgpd

theorem findFrom_some {d : Bytes} : ∀ (gs : List Bytes) (i n : Nat), findFrom d i gs = some n →
    ∃ k, n = i + k + 1 ∧ gs[k]? = some d := by
  intro gs
  induction gs with
  | nil => intro i n h; cases h
  | cons p ps ih =>
    intro i n h
    unfold findFrom at h
    by_cases h1 : p.length ≠ d.length
    · rw [if_pos h1] at h
      obtain ⟨k, rfl, hk⟩ := ih _ _ h
      exact ⟨k + 1, by omega, by simpa using hk⟩
    · rw [if_neg h1] at h
      by_cases h2 : p = d
      · rw [if_pos h2] at h
        cases h
        exact ⟨0, by omega, by simp [h2]⟩
      · rw [if_neg h2] at h
        obtain ⟨k, rfl, hk⟩ := ih _ _ h
        exact ⟨k + 1, by omega, by simpa using hk⟩

theorem findFrom_none {d : Bytes} : ∀ (gs : List Bytes) (i : Nat), findFrom d i gs = none ↔ d ∉ gs := by
  intro gs
  induction gs with
  | nil => intro i; simp [findFrom]
  | cons p ps ih =>
    intro i
    unfold findFrom
    by_cases h1 : p.length ≠ d.length
    · rw [if_pos h1, ih]
      have : d ≠ p := fun h => h1 (by rw [h])
      simp [this]
    · rw [if_neg h1]
      by_cases h2 : p = d
      · rw [if_pos h2]; simp [h2]
      · rw [if_neg h2, ih]
        have : d ≠ p := fun h => h2 h.symm
        simp [this]

/-- One addition, as a state change: a refused one changes nothing. -/
def addStep (gs : List Bytes) (d : Bytes) : List Bytes :=
  match add gs d with
  | .ok (gs', _) => gs'
  | _ => gs

/-- All additions of a history, in order. -/
def addAll (gs : List Bytes) (ds : List Bytes) : List Bytes := ds.foldl addStep gs

/-- Specification: the distinct non-empty byte strings of a history, in order of first appearance. -/
def stored (ds : List Bytes) : List Bytes :=
  ds.foldl (fun acc d => if d = [] ∨ d ∈ acc then acc else acc ++ [d]) []

theorem add_eq (gs : List Bytes) (d : Bytes) :
    add gs d = if d = [] ∨ d ∈ gs then .err .badParam else .ok (gs ++ [d], gs.length + 1) := by
  unfold add find
  by_cases h0 : d = []
  · simp [h0]
  · rw [if_neg (by simpa using h0)]
    by_cases h1 : d ∈ gs
    · rw [if_pos (Or.inr h1)]
      cases hf : findFrom d 0 gs with
      | none => exact absurd h1 ((findFrom_none gs 0).mp hf)
      | some i => rfl
    · rw [if_neg (by simp [h0, h1]), (findFrom_none gs 0).mpr h1]

/-- An addition is refused exactly if the string is empty or was added before; else its index is one
more than the number of strings stored. After any history the strings stored are the distinct
non-empty ones given so far. -/
theorem c21_accepted (ds : List Bytes) (d : Bytes) :
    addAll [] ds = stored ds ∧ (stored ds).Nodup ∧ (∀ x, x ∈ stored ds ↔ x ≠ [] ∧ x ∈ ds) ∧
    add (addAll [] ds) d = if d = [] ∨ d ∈ ds then .err .badParam
      else .ok (addAll [] (ds ++ [d]), (stored ds).length + 1) := by
  have hstep : ∀ gs d, addStep gs d = if d = [] ∨ d ∈ gs then gs else gs ++ [d] := by
    intro gs d
    unfold addStep
    rw [add_eq]
    by_cases h : d = [] ∨ d ∈ gs
    · rw [if_pos h, if_pos h]
    · rw [if_neg h, if_neg h]
  have hall : ∀ ds gs, addAll gs ds = ds.foldl (fun acc d => if d = [] ∨ d ∈ acc then acc else acc ++ [d]) gs := by
    intro ds
    induction ds with
    | nil => intro gs; rfl
    | cons x ds ih => intro gs; simp only [addAll, List.foldl_cons, hstep] at ih ⊢; exact ih _
  have h1 : ∀ ds, addAll [] ds = stored ds := fun ds => hall ds []
  have hsnoc : ∀ ds d, stored (ds ++ [d]) = if d = [] ∨ d ∈ stored ds then stored ds else stored ds ++ [d] := by
    intro ds d
    unfold stored
    rw [List.foldl_append]
    rfl
  have hrev : ∀ (r : List Bytes), (stored r.reverse).Nodup ∧ ∀ x, x ∈ stored r.reverse ↔ x ≠ [] ∧ x ∈ r.reverse := by
    intro r
    induction r with
    | nil => simp [stored]
    | cons a r ih =>
      rw [List.reverse_cons, hsnoc]
      obtain ⟨i1, i2⟩ := ih
      by_cases h : a = [] ∨ a ∈ stored r.reverse
      · rw [if_pos h]
        refine ⟨i1, fun x => ?_⟩
        rw [i2 x]
        constructor
        · rintro ⟨g1, g2⟩; exact ⟨g1, by simp at g2 ⊢; exact Or.inl g2⟩
        · rintro ⟨g1, g2⟩
          refine ⟨g1, ?_⟩
          rw [List.mem_append] at g2
          rcases g2 with g2 | g2
          · exact g2
          · have : x = a := by simpa using g2
            subst this
            rcases h with h | h
            · exact absurd h g1
            · exact ((i2 x).mp h).2
      · rw [if_neg h]
        refine ⟨?_, fun x => ?_⟩
        · rw [List.nodup_append]
          refine ⟨i1, by simp, ?_⟩
          intro x hx y hy hxy
          have : y = a := by simpa using hy
          exact h (Or.inr (by rw [← this, ← hxy]; exact hx))
        · rw [List.mem_append, List.mem_append, i2 x]
          constructor
          · rintro (⟨g1, g2⟩ | g)
            · exact ⟨g1, Or.inl g2⟩
            · have : x = a := by simpa using g
              subst this
              exact ⟨fun h' => h (Or.inl h'), Or.inr g⟩
          · rintro ⟨g1, g2 | g2⟩
            · exact Or.inl ⟨g1, g2⟩
            · exact Or.inr g2
  have hds := hrev ds.reverse
  rw [List.reverse_reverse] at hds
  refine ⟨h1 ds, hds.1, hds.2, ?_⟩
  rw [add_eq, h1, h1, hsnoc]
  by_cases h : d = [] ∨ d ∈ stored ds
  · rw [if_pos h, if_pos]
    rcases h with h | h
    · exact Or.inl h
    · exact Or.inr ((hds.2 d).mp h).2
  · rw [if_neg h, if_neg, if_neg h]
    intro h'
    apply h
    rcases h' with h' | h'
    · exact Or.inl h'
    · by_cases h0 : d = []
      · exact Or.inl h0
      · exact Or.inr ((hds.2 d).mpr ⟨h0, h'⟩)

theorem addAll_prefix : ∀ (ds : List Bytes) (gs : List Bytes), ∃ more, addAll gs ds = gs ++ more := by
  intro ds
  induction ds with
  | nil => intro gs; exact ⟨[], by simp [addAll]⟩
  | cons d ds ih =>
    intro gs
    have : ∃ m, addStep gs d = gs ++ m := by
      unfold addStep
      rw [add_eq]
      by_cases h : d = [] ∨ d ∈ gs
      · rw [if_pos h]; exact ⟨[], by simp⟩
      · rw [if_neg h]; exact ⟨[d], rfl⟩
    obtain ⟨m, hm⟩ := this
    obtain ⟨m', hm'⟩ := ih (addStep gs d)
    refine ⟨m ++ m', ?_⟩
    show addAll (addStep gs d) ds = _
    rw [hm', hm, List.append_assoc]

/-- The index returned for a string gives that string back after any further additions, and is
what searching for the string finds. -/
theorem c21_index_stable (gs gs' : List Bytes) (d : Bytes) (i : Nat) (h : add gs d = .ok (gs', i))
    (later : List Bytes) :
    get (addAll gs' later) i = .ok d ∧ find (addAll gs' later) d = .ok i := by
  rw [add_eq] at h
  by_cases hc : d = [] ∨ d ∈ gs
  · rw [if_pos hc] at h; cases h
  · rw [if_neg hc] at h
    have hc' : d ≠ [] ∧ d ∉ gs := by simpa using hc
    cases h
    obtain ⟨more, hm⟩ := addAll_prefix later (gs ++ [d])
    rw [hm]
    have hget : (gs ++ [d] ++ more)[gs.length]? = some d := by simp
    refine ⟨?_, ?_⟩
    · unfold get
      rw [if_neg (by simp), Nat.add_sub_cancel, hget]
    · unfold find
      rw [if_neg (by simpa using hc'.1)]
      have : ∀ (gs : List Bytes) (i : Nat), d ∉ gs → findFrom d i (gs ++ ([d] ++ more)) = some (i + gs.length + 1) := by
        intro gs
        induction gs with
        | nil => intro i _; simp [findFrom]
        | cons p ps ih =>
          intro i hp
          have hp' : d ≠ p ∧ d ∉ ps := by simpa using hp
          have := ih (i + 1) hp'.2
          rw [List.cons_append]
          unfold findFrom
          rw [this, if_neg (fun h : p = d => hp'.1 h.symm)]
          have e : i + 1 + ps.length + 1 = i + (p :: ps).length + 1 := by simp only [List.length_cons]; omega
          rw [e]
          split <;> rfl
      rw [List.append_assoc, this gs 0 hc'.2]
      simp

example : add (addAll [] [[1], [2, 3], [], [1]]) [9] = .ok ([[1], [2, 3], [9]], 3) := by decide

/-! ### C46 -/

/-- The layout of version 1 in the standard: if all descriptions have the same length, it is given
once, else before each of them. -/
def layout (flags groupingType : Nat) (gs : List Bytes) : Bytes :=
  fullBox (fcc 's' 'g' 'p' 'd') 1 flags (be 4 groupingType ++
    (if ∀ g ∈ gs, g.length = (gs.head?.getD []).length then be 4 (gs.head?.getD []).length ++ (be 4 gs.length ++ gs.flatMap id)
     else be 4 0 ++ (be 4 gs.length ++ gs.flatMap fun g => be 4 g.length ++ g)))

theorem defaultLength_fold (gs : List Bytes) : ∀ d : Nat, (∀ g ∈ gs, g.length ≠ 0) →
    gs.foldl (fun d (x : Bytes) => if x.length ≠ d then 0 else d) d = if ∀ g ∈ gs, g.length = d then d else 0 := by
  induction gs with
  | nil => intro d _; simp
  | cons g gs ih =>
    intro d h
    rw [List.foldl_cons, ih _ fun x hx => h x (by simp [hx])]
    by_cases h1 : g.length ≠ d
    · rw [if_pos h1, if_neg (c := ∀ x ∈ g :: gs, x.length = d) (by simp [h1])]
      split <;> rfl
    · rw [if_neg h1]
      have h1 : g.length = d := by omega
      by_cases h2 : ∀ x ∈ gs, x.length = d
      · rw [if_pos h2, if_pos (by simpa [h1] using h2)]
      · rw [if_neg h2, if_neg (by simpa [h1] using h2)]

theorem c46_sgpd_round_trip (flags groupingType : Nat) (gs : List Bytes) (hf : flags < 16777216)
    (hg : groupingType < 4294967296) (h0 : gs ≠ []) (hne : ∀ g ∈ gs, g ≠ [])
    (hsize : 24 + 5 * (gs.map List.length).sum < 4294967296) :
    BoxRoundTrip (calcSize gs) (serialize 1 flags groupingType gs) parseBody ((1, flags), groupingType, gs)
      (layout flags groupingType gs) := by
  have hcount : gs.length ≤ (gs.map List.length).sum := by
    clear hsize h0
    induction gs with
    | nil => simp
    | cons g gs ih =>
      have := ih fun x hx => hne x (by simp [hx])
      have hg1 : g ≠ [] := hne g (by simp)
      have := List.length_pos_iff.mpr hg1
      simp only [List.length_cons, List.map_cons, List.sum_cons]; omega
  have hmem : ∀ g ∈ gs, g.length ≤ (gs.map List.length).sum := by
    clear hsize h0 hne hcount
    induction gs with
    | nil => intro g hg; simp at hg
    | cons a gs ih =>
      intro g hg
      simp only [List.map_cons, List.sum_cons]
      rcases List.mem_cons.mp hg with rfl | hg
      · omega
      · have := ih g hg; omega
  obtain ⟨g0, gs', rfl⟩ : ∃ g0 gs', gs = g0 :: gs' := by
    cases gs with
    | nil => exact absurd rfl h0
    | cons a b => exact ⟨a, b, rfl⟩
  have hpos : g0.length ≠ 0 := by have := hne g0 (by simp); simpa using this
  have hdef : defaultLength (g0 :: gs') = if ∀ g ∈ gs', g.length = g0.length then g0.length else 0 :=
    defaultLength_fold gs' g0.length fun x hx => by
      have := hne x (by simp [hx]); simpa using this
  unfold serialize layout
  rw [if_neg h0]
  by_cases hall : ∀ g ∈ gs', g.length = g0.length
  · rw [if_pos hall] at hdef
    rw [if_pos (show ∀ g ∈ g0 :: gs', g.length = ((g0 :: gs').head?.getD []).length by simpa using hall)]
    have hall' : ∀ g ∈ g0 :: gs', g.length = g0.length := by simpa using hall
    have hlen : ((g0 :: gs').flatMap id).length = ((g0 :: gs').map List.length).sum := by
      simp
    have hsz : calcSize (g0 :: gs') = 24 + ((g0 :: gs').map List.length).sum := by
      unfold calcSize; rw [hdef, if_neg hpos]; omega
    rw [hdef]
    refine BoxRoundTrip.ofFull ?_ ?_ (by rw [List.length_append, List.length_append, List.length_append,
      be_length, be_length, be_length, hlen]; omega) (by omega) (by decide) (by decide)
    · refine (emits_put32 _).then ((emits_put32 _).then ((emits_put32 _).then (Emits.thenAssert ?_)))
      refine Emits.each _ fun g hg => ?_
      unfold putEntry
      rw [if_neg hpos, if_pos (hall' g hg)]
      have := emits_skip.seq (emits_bytes g)
      simpa using this
    · apply Parses.at
      refine (parses_versionFlags (by omega) hf).bind ((parses_get32' hg).bind ?_)
      refine (parses_get32' (v := g0.length) (by have := hmem g0 (by simp); omega)).bind ?_
      refine Parses.bind (x := []) (parses_pure 0) ((parses_get32' (by omega)).bind (Parses.bind_nil ?_ (parses_pure _)))
      refine parses_repeat _ id (fun g hg => ?_) rfl
      unfold getEntry
      rw [if_pos (Nat.le_refl 1), if_neg hpos]
      exact parses_getBytes (hall' g hg)
  · rw [if_neg hall] at hdef
    rw [if_neg (show ¬ ∀ g ∈ g0 :: gs', g.length = ((g0 :: gs').head?.getD []).length by simpa using hall)]
    have hlen : ((g0 :: gs').flatMap fun g => be 4 g.length ++ g).length =
        ((g0 :: gs').map List.length).sum + 4 * (g0 :: gs').length := by
      generalize g0 :: gs' = l
      induction l with
      | nil => simp
      | cons a l ih =>
        simp only [List.flatMap_cons, List.length_append, be_length, ih, List.map_cons, List.sum_cons,
          List.length_cons]
        omega
    have hsz : calcSize (g0 :: gs') = 24 + (((g0 :: gs').map List.length).sum + 4 * (g0 :: gs').length) := by
      unfold calcSize; rw [hdef, if_pos rfl]; omega
    rw [hdef]
    refine BoxRoundTrip.ofFull ?_ ?_ (by rw [List.length_append, List.length_append, List.length_append,
      be_length, be_length, be_length, hlen]; omega) (by omega) (by decide) (by decide)
    · refine (emits_put32 _).then ((emits_put32 _).then ((emits_put32 _).then (Emits.thenAssert ?_)))
      refine Emits.each _ fun g hg => ?_
      unfold putEntry
      rw [if_pos rfl]
      exact (emits_put32 _).seq (emits_bytes g)
    · apply Parses.at
      refine (parses_versionFlags (by omega) hf).bind ((parses_get32' hg).bind ?_)
      refine (parses_get32' (v := 0) (by omega)).bind ?_
      refine Parses.bind (x := []) (parses_pure 0) ((parses_get32' (by omega)).bind (Parses.bind_nil ?_ (parses_pure _)))
      refine parses_repeat _ (fun g => be 4 g.length ++ g) (fun g hg => ?_) rfl
      unfold getEntry
      rw [if_pos (Nat.le_refl 1), if_pos rfl]
      exact (parses_get32' (by have := hmem g hg; omega)).bind (parses_getBytes rfl)

/-- Two descriptions of different lengths. -/
example : runW (calcSize [[7], [8, 9]]) (serialize 1 0 0x726f6c6c [[7], [8, 9]]) =
    .ok [0, 0, 0, 35, 0x73, 0x67, 0x70, 0x64, 1, 0, 0, 0, 0x72, 0x6f, 0x6c, 0x6c, 0, 0, 0, 0, 0, 0, 0, 2,
      0, 0, 0, 1, 7, 0, 0, 0, 2, 8, 9] := by decide

/-- The parser accepts version 2 and skips its default index, but the serializer does not write it:
a box parsed in version 2 and written again is parsed as something else. -/
theorem c46_version_2 :
    (runW (calcSize [[7], [8]]) (serialize 2 0 1 [[7], [8]])).bind
      (fun bs => (parseAtom parseBody bs).bind fun r => .ok r.1) ≠ .ok ((2, 0), 1, [[7], [8]]) := by
  decide

end Verif.Sgpd
