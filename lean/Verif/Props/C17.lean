import Verif.Model.Ctts
import Verif.Spec.Batch
import Verif.Lemmas.Rle
import Verif.Lemmas.Box

/-!
# C17 — composition offsets belong to the sample they were given for

Full property: for any history of sample additions, the composition offset reported for sample n is
the one supplied when sample n was added, and zero for samples added without offsets. The code does
not do this when the first samples are added without offsets (`c17_late_offsets`), so the main
theorem asks that the first batch has offsets, or none has.
-/

namespace Verif.Ctts

/-- One addition of samples: `n` samples with the given offsets (`none`: without). -/
structure Add where
  n : Nat
  offs : Option Batch

/-- The batch is not empty and its offsets are for its samples. -/
def Add.Valid (a : Add) : Prop := 0 < a.n ∧ ∀ b, a.offs = some b → b.count = a.n ∧ b.array ≠ []

/-- The offset of each sample of the batch. -/
def Add.given (a : Add) : List Nat :=
  match a.offs with
  | none => List.replicate a.n 0
  | some b => b.values

def addBatch (s : St) (a : Add) : Res St := tableAdd s a.n (a.offs.map Batch.array)

/-! ## Lemmas -/

theorem getLoop_ok (n : Nat) : ∀ (es : List (Nat × Nat)) (acc : Nat), acc < n →
    acc + (expand es).length < 4294967296 →
    getLoop n es acc = (expand es)[n - 1 - acc]? := by
  intro es
  induction es with
  | nil => intro acc _ _; simp [getLoop]
  | cons e es ih =>
    intro acc h1 h2
    simp only [expand_cons, List.length_append, List.length_replicate] at h2
    unfold getLoop
    have hm : (acc + e.1) % 4294967296 = acc + e.1 := by omega
    rw [hm]
    by_cases h : acc + e.1 ≥ n
    · rw [if_pos h, expand_cons, List.getElem?_append_left (by simp; omega)]
      rw [List.getElem?_replicate, if_pos (by omega)]
    · rw [if_neg h, ih _ (by omega) (by omega), expand_cons, List.getElem?_append_right (by simp; omega)]
      rw [List.length_replicate]
      congr 1
      omega

/-- The table holds the offsets `L` and its fields agree. -/
structure Rep (t : Ctts) (L : List Nat) : Prop where
  expand : expand t.entries = L
  final : t.final = L.length
  cur : t.entries ≠ [] → t.cur = true

theorem addSample_ok {t : Ctts} {L : List Nat} (h : Rep t L) (o : Nat) (hl : L.length + 1 < 4294967296) :
    Rep (addSample t o) (L ++ [o]) := by
  have hf : (t.final + 1) % 4294967296 = L.length + 1 := by rw [h.final]; omega
  unfold addSample
  rw [hf]
  cases hlast : t.entries.getLast? with
  | none =>
    have : t.entries = [] := List.getLast?_eq_none_iff.mp hlast
    refine ⟨?_, by simp, by simp⟩
    rw [← h.expand, this]; simp
  | some last =>
    have heq := getLast?_eq_some_iff_append hlast
    have hne : t.entries ≠ [] := by intro e; simp [e] at hlast
    by_cases hc : t.cur = true ∧ last.2 = o
    · refine ⟨?_, by simp, by simp⟩
      simp only [if_pos hc, expand_append, expand_cons, expand_nil, List.append_nil]
      have hL : L = expand t.entries.dropLast ++ List.replicate last.1 last.2 := by
        rw [← h.expand, heq]; simp
      have hlen : last.1 ≤ L.length := by rw [hL]; simp
      have hm : (last.1 + 1) % 4294967296 = last.1 + 1 := by omega
      rw [hm, hL, ← hc.2, List.replicate_succ', List.append_assoc]
    · refine ⟨?_, by simp, by simp⟩
      simp only [if_neg hc, expand_append, expand_cons, expand_nil, h.expand]
      simp

theorem addMany_ok : ∀ (os : List Nat) {t : Ctts} {L : List Nat}, Rep t L →
    L.length + os.length < 4294967296 → Rep (os.foldl addSample t) (L ++ os) := by
  intro os
  induction os with
  | nil => intro t L h _; simpa using h
  | cons o os ih =>
    intro t L h hl
    simp only [List.length_cons] at hl
    have := ih (addSample_ok h o (by omega)) (by rw [List.length_append, List.length_singleton]; omega)
    simpa using this

/-- Once offsets were given: the table holds those of the samples up to the last one given. -/
structure Inv (s : St) (L : List Nat) : Prop where
  samples : s.samples = L.length
  table : ∃ t M, s.ctts = some t ∧ Rep t M ∧ M ≠ [] ∧ ∃ z, L = M ++ List.replicate z 0

theorem offsetsFor_ok {a : Add} (ha : a.Valid) {b : Batch} (hb : a.offs = some b) :
    offsetsFor a.n b.array = .ok b.values := by
  obtain ⟨h1, h2⟩ := ha.2 b hb
  have h3 := ha.1
  cases b with
  | uniform n v =>
    simp only [Batch.count] at h1
    subst h1
    simp only [Batch.array, offsetsFor, Batch.values]
    by_cases hn : a.n ≠ 1
    · rw [if_pos hn]
    · have : a.n = 1 := by omega
      rw [if_neg hn, this]; rfl
  | each vs =>
    simp only [Batch.count] at h1
    show offsetsFor a.n vs = .ok vs
    unfold offsetsFor
    split
    · rename_i o
      simp at h1
      rw [if_neg (by omega)]
    · rw [if_neg (by omega)]

theorem given_length {a : Add} (ha : a.Valid) : a.given.length = a.n := by
  unfold Add.given
  cases hb : a.offs with
  | none => simp
  | some b =>
    have := (ha.2 b hb).1
    cases b <;> simpa [Batch.values, Batch.count] using this

theorem addBatch_ok {s : St} {L : List Nat} (h : Inv s L) {a : Add} (ha : a.Valid)
    (hl : L.length + a.n < 2147483648) : ∃ s', addBatch s a = .ok s' ∧ Inv s' (L ++ a.given) := by
  obtain ⟨t, M, ht, hR, hM, z, hz⟩ := h.table
  have hMpos := List.length_pos_iff.mpr hM
  have hlen : L.length = M.length + z := by rw [hz]; simp
  have e1 : (s.samples + a.n) % 4294967296 = L.length + a.n := by rw [h.samples]; omega
  have e2 : (s.samples + 1) % 4294967296 = L.length + 1 := by rw [h.samples]; omega
  have hgl := given_length ha
  unfold addBatch tableAdd
  rw [e1, e2]
  cases hb : a.offs with
  | none =>
    have hg : a.given = List.replicate a.n 0 := by unfold Add.given; rw [hb]
    refine ⟨_, rfl, ⟨by simp [hgl], t, M, ht, hR, hM, z + a.n, ?_⟩⟩
    rw [hg, hz, List.append_assoc, List.replicate_append_replicate]
  | some b =>
    have hg : a.given = b.values := by unfold Add.given; rw [hb]
    have hp : pad t (L.length + 1) = .ok ((List.replicate z 0).foldl addSample t) := by
      unfold pad
      have hf := hR.final
      rw [if_pos (by omega), if_neg (by omega), if_pos (by omega)]
      rw [show L.length + 1 - t.final - 1 = z by omega]
    have hR' := addMany_ok (List.replicate z 0) hR (by rw [List.length_replicate]; omega)
    rw [← hz] at hR'
    have hR'' := addMany_ok b.values hR' (by rw [← hg, hgl]; omega)
    simp only [Option.map_some, ht, Option.getD_some, addSamples, hp, offsetsFor_ok ha hb, Res.bind]
    refine ⟨_, rfl, ⟨by simp [hgl], _, L ++ a.given, rfl, by rw [hg]; exact hR'', ?_, 0, by simp⟩⟩
    intro e
    simp only [List.append_eq_nil_iff] at e
    rw [e.1] at hlen
    simp at hlen; omega

theorem addAll_ok : ∀ (as : List Add) (s : St) (L : List Nat), Inv s L → (∀ a ∈ as, a.Valid) →
    L.length + (as.flatMap Add.given).length < 2147483648 →
    ∃ s', runAll addBatch s as = .ok s' ∧ Inv s' (L ++ as.flatMap Add.given) := by
  intro as
  induction as with
  | nil => intro s L h _ _; exact ⟨s, rfl, by simpa using h⟩
  | cons a as ih =>
    intro s L h hv hl
    have ha := hv a (by simp)
    rw [List.flatMap_cons, List.length_append, given_length ha] at hl
    obtain ⟨s', g1, g2⟩ := addBatch_ok h ha (by omega)
    obtain ⟨s'', k1, k2⟩ := ih s' _ g2 (fun x hx => hv x (by simp [hx]))
      (by rw [List.length_append, given_length ha]; omega)
    refine ⟨s'', ?_, by simpa using k2⟩
    simp only [runAll, g1, Res.bind]; exact k1

theorem first_ok {a : Add} (ha : a.Valid) (hs : a.offs ≠ none) (hl : a.n < 2147483648) :
    ∃ s', addBatch ⟨0, none⟩ a = .ok s' ∧ Inv s' a.given := by
  have hgl := given_length ha
  have hpos := ha.1
  cases hb : a.offs with
  | none => exact absurd hb hs
  | some b =>
    have hg : a.given = b.values := by unfold Add.given; rw [hb]
    have e1 : (0 + a.n) % 4294967296 = a.n := by omega
    have hp : pad create ((0 + 1) % 4294967296) = .ok create := by unfold pad; rw [if_neg (by simp [create])]
    have hR := addMany_ok b.values (t := create) (L := []) ⟨rfl, rfl, by simp [create]⟩
      (by rw [← hg, hgl]; simp; omega)
    unfold addBatch tableAdd
    rw [e1, hb]
    simp only [Option.map_some, Option.getD_none, addSamples, hp, offsetsFor_ok ha hb, Res.bind]
    refine ⟨_, rfl, ⟨by simp [hgl], _, a.given, rfl, by rw [hg]; simpa using hR, ?_, 0, by simp⟩⟩
    intro e
    rw [e] at hgl
    simp at hgl; omega

theorem offsetOf_ok {s : St} {L : List Nat} (h : Inv s L) (hl : L.length < 2147483648) {n v : Nat}
    (hn : L[n]? = some v) : offsetOf s (n + 1) = v := by
  obtain ⟨t, M, ht, hR, hM, z, hz⟩ := h.table
  have hlen : L.length = M.length + z := by rw [hz]; simp
  unfold offsetOf
  rw [ht]
  simp only [getOffset]
  rw [getLoop_ok (n + 1) t.entries 0 (by omega) (by rw [hR.expand]; omega), hR.expand]
  simp only [Nat.add_sub_cancel, Nat.sub_zero]
  rw [hz] at hn
  by_cases hm : n < M.length
  · rw [List.getElem?_append_left hm] at hn
    rw [hn]; rfl
  · rw [List.getElem?_append_right (by omega)] at hn
    rw [List.getElem?_eq_none (by omega)]
    have := List.eq_of_mem_replicate (List.mem_of_getElem? hn)
    rw [this]; rfl

/-! ## Theorems -/

/-- After any history of additions with and without offsets whose first batch has them, the offset
reported for a sample is the one given for it, zero for samples of batches without. -/
theorem c17_offsets_partial (as : List Add) (hv : ∀ a ∈ as, a.Valid)
    (hfirst : ∀ a, as.head? = some a → a.offs ≠ none)
    (hl : (as.flatMap Add.given).length < 2147483648) :
    ∃ s, runAll addBatch ⟨0, none⟩ as = .ok s ∧
      ∀ (n v : Nat), (as.flatMap Add.given)[n]? = some v → offsetOf s (n + 1) = v := by
  cases as with
  | nil => exact ⟨_, rfl, by simp⟩
  | cons a as =>
    have ha := hv a (by simp)
    rw [List.flatMap_cons, List.length_append, given_length ha] at hl
    obtain ⟨s, g1, g2⟩ := first_ok ha (hfirst a rfl) (by omega)
    obtain ⟨s', k1, k2⟩ := addAll_ok as s _ g2 (fun x hx => hv x (by simp [hx]))
      (by rw [given_length ha]; omega)
    refine ⟨s', ?_, ?_⟩
    · simp only [runAll, g1, Res.bind]; exact k1
    · intro n v hn
      rw [List.flatMap_cons] at hn
      exact offsetOf_ok k2 (by rw [List.length_append, given_length ha]; omega) hn

/-- Without any offsets there is no table and zero is reported. -/
theorem c17_no_offsets (as : List Add) (hnone : ∀ a ∈ as, a.offs = none) :
    ∃ s, runAll addBatch ⟨0, none⟩ as = .ok s ∧ ∀ n, offsetOf s n = 0 := by
  have : ∀ (as : List Add) (k : Nat), (∀ a ∈ as, a.offs = none) →
      ∃ k', runAll addBatch ⟨k, none⟩ as = .ok ⟨k', none⟩ := by
    intro as
    induction as with
    | nil => intro k _; exact ⟨k, rfl⟩
    | cons a as ih =>
      intro k h
      have : addBatch ⟨k, none⟩ a = .ok ⟨(k + a.n) % 4294967296, none⟩ := by
        unfold addBatch tableAdd; rw [h a (by simp)]; rfl
      obtain ⟨k', hk⟩ := ih ((k + a.n) % 4294967296) (fun x hx => h x (by simp [hx]))
      exact ⟨k', by simp only [runAll, this, Res.bind]; exact hk⟩
  obtain ⟨k', hk⟩ := this as 0 hnone
  exact ⟨_, hk, fun n => rfl⟩

/-- The entries survive being written and parsed, and the parsed table reports the same offset for
every sample number. -/
theorem c17_ctts_round_trip (version flags : Nat) (t : Ctts) (hv : version < 256)
    (hf : flags < 16777216) (hn : t.entries.length < 536870910)
    (hes : ∀ e ∈ t.entries, e.1 < 4294967296 ∧ e.2 < 4294967296) :
    ∃ t', BoxRoundTrip (calcSize t.entries) (serialize version flags t.entries) parseBody ((version, flags), t')
        (fullBox (fcc 'c' 't' 't' 's') version flags
          (be 4 t.entries.length ++ t.entries.flatMap fun e => be 4 e.1 ++ be 4 e.2)) ∧
      t'.entries = t.entries ∧ ∀ n, getOffset t' n = getOffset t n := by
  have hlen : (t.entries.flatMap fun e => be 4 e.1 ++ be 4 e.2).length = 8 * t.entries.length :=
    flatMap_length_const t.entries (by simp)
  have hsz : calcSize t.entries = 16 + 8 * t.entries.length := by unfold calcSize; omega
  refine ⟨⟨t.entries, false, 0⟩, ?_, rfl, fun _ => rfl⟩
  refine BoxRoundTrip.ofFull ?_ ?_ (by simp only [List.length_append, be_length, hlen]; omega)
    (by omega) (by decide) (by decide)
  · exact (emits_put32 _).then
      (Emits.each t.entries fun e _ => (emits_put32 e.1).seq (emits_put32 e.2)).thenAssert
  · apply Parses.at
    refine (parses_versionFlags hv hf).bind ((parses_get32' (by omega)).bind (Parses.bind_nil ?_ (parses_pure _)))
    refine parses_repeat t.entries _ (fun e he => ?_) rfl
    exact (parses_get32' (hes e he).1).bind ((parses_get32' (hes e he).2).bind_nil (parses_pure _))

/-- Offsets 5, 5; two samples without; 7, 0; 3, 3, 3. -/
example : ∃ s, runAll addBatch ⟨0, none⟩ [⟨2, some (.uniform 2 5)⟩, ⟨2, none⟩, ⟨2, some (.each [7, 0])⟩,
      ⟨3, some (.uniform 3 3)⟩] = .ok s ∧
    offsetOf s 2 = 5 ∧ offsetOf s 4 = 0 ∧ offsetOf s 5 = 7 ∧ offsetOf s 7 = 3 := by
  obtain ⟨s, h1, h2⟩ := c17_offsets_partial [⟨2, some (.uniform 2 5)⟩, ⟨2, none⟩, ⟨2, some (.each [7, 0])⟩,
      ⟨3, some (.uniform 3 3)⟩] (by simp [Add.Valid, Batch.count, Batch.array]) (by simp)
      (by simp [Add.given, Batch.values])
  exact ⟨s, h1, h2 1 5 (by decide), h2 3 0 (by decide), h2 4 7 (by decide), h2 6 3 (by decide)⟩

/-- The property fails when offsets come late: two samples without offsets, then one with offset 7.
The offset of the third is reported for the first, and zero for the third. -/
theorem c17_late_offsets :
    ∃ s, runAll addBatch ⟨0, none⟩ [⟨2, none⟩, ⟨1, some (.each [7])⟩] = .ok s ∧
      offsetOf s 1 = 7 ∧ offsetOf s 3 = 0 := by
  refine ⟨⟨3, some ⟨[(1, 7)], true, 1⟩⟩, ?_, ?_, ?_⟩ <;> decide

end Verif.Ctts
