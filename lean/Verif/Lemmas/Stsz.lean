import Verif.Model.Stsz
import Verif.Spec.Batch
import Verif.Lemmas.Rle
import Verif.Lemmas.Box

namespace Verif.Stsz

/-- `t` stands for the list of sizes `L`. -/
structure Rep (t : Stsz) (L : List Nat) : Prop where
  count : t.count = L.length
  rep : (t.sampleSize ≠ 0 ∧ L = List.replicate L.length t.sampleSize) ∨
    (t.sampleSize = 0 ∧ (L = [] ∨ ∃ cells, t.cells = some cells ∧ L.length < cells.length ∧
      cells.take L.length = L))

/-- `t` was reached by additions of non-empty batches only. -/
structure Inv (t : Stsz) (L : List Nat) : Prop where
  count : t.count = L.length
  rep : (L = [] ∧ t.sampleSize = 0 ∧ t.cells = none ∧ t.alloc = 0) ∨
    (L ≠ [] ∧ t.sampleSize ≠ 0 ∧ L = List.replicate L.length t.sampleSize ∧ t.cells = none ∧ t.alloc = 0) ∨
    (L ≠ [] ∧ t.sampleSize = 0 ∧ ∃ cells, t.cells = some cells ∧ t.alloc = 4 * cells.length ∧
      t.alloc < 4294967296 ∧ L.length < cells.length ∧ cells.take L.length = L)

theorem Inv.toRep {t : Stsz} {L : List Nat} (h : Inv t L) : Rep t L := by
  refine ⟨h.count, ?_⟩
  rcases h.rep with ⟨h1, h2, h3, h4⟩ | ⟨h1, h2, h3, h4, h5⟩ | ⟨h1, h2, cells, h3, h4, h5, h6, h7⟩
  · exact Or.inr ⟨h2, Or.inl h1⟩
  · exact Or.inl ⟨h2, h3⟩
  · exact Or.inr ⟨h2, Or.inr ⟨cells, h3, h6, h7⟩⟩

theorem store_ok {cells vals L : List Nat} (h1 : cells.take L.length = L)
    (h2 : L.length + vals.length < cells.length) :
    ∃ cells', store cells L.length vals = .ok cells' ∧ cells'.length = cells.length ∧
      cells'.take (L ++ vals).length = L ++ vals := by
  refine ⟨_, if_pos (by omega), ?_, ?_⟩
  · simp; omega
  · rw [h1, List.take_append_of_le_length (by simp), List.take_of_length_le (by simp)]

theorem makeRoom_ok (junk : Nat → Nat) {t : Stsz} {L : List Nat} (h : Inv t L) (n : Nat)
    (hb : L.length + n + 1 < 1073739776) :
    ∃ alloc cells, makeRoom junk t n = .ok (alloc, cells) ∧ alloc = 4 * cells.length ∧
      alloc < 4294967296 ∧ L.length + n < cells.length ∧ cells.take L.length = L := by
  have hns : (n + t.count + 1) % 4294967296 * 4 % 4294967296 = 4 * (L.length + n + 1) := by
    rw [h.count]; omega
  unfold makeRoom
  simp only [hns]
  -- growing an array that holds `L`
  have growing : ∀ (alloc : Nat) (cells : List Nat), alloc = 4 * cells.length →
      cells.take L.length = L → L.length ≤ cells.length → alloc < 4294967296 →
      ∃ alloc' cells', (if alloc < 4 * (L.length + n + 1) then
          match grow alloc (4 * (L.length + n + 1)) with
          | .ok a => Res.ok (a, realloc junk cells (a / 4))
          | _ => .ub
        else .ok (alloc, cells)) = Res.ok (alloc', cells') ∧ alloc' = 4 * cells'.length ∧
        alloc' < 4294967296 ∧ L.length + n < cells'.length ∧ cells'.take L.length = L := by
    intro alloc cells ha hL hlen h32
    by_cases hlt : alloc < 4 * (L.length + n + 1)
    · rw [if_pos hlt]
      unfold grow
      rw [if_pos (by omega)]
      have hre : ∀ k, cells.length ≤ k → (realloc junk cells k).length = k ∧
          (realloc junk cells k).take L.length = L := by
        intro k hk
        unfold realloc
        rw [List.take_of_length_le hk]
        exact ⟨by simp; omega, by rw [List.take_append_of_le_length hlen]; exact hL⟩
      generalize hq : (4 * (L.length + n + 1) - alloc + 8191) / 8192 = q
      have hr := hre ((alloc + 8192 * q) / 4) (by omega)
      refine ⟨_, _, rfl, ?_, ?_, ?_, hr.2⟩
      · rw [hr.1]; omega
      · omega
      · rw [hr.1]; omega
    · rw [if_neg hlt]
      exact ⟨alloc, cells, rfl, ha, h32, by omega, hL⟩
  rcases h.rep with ⟨h1, h2, h3, h4⟩ | ⟨h1, h2, h3, h4, h5⟩ | ⟨h1, h2, cells, h3, h4, h5, h6, h7⟩
  · have hc : t.count = 0 := by rw [h.count, h1]; rfl
    have hnf : ¬ (t.cells = none ∧ t.count ≠ 0) := by omega
    simp only [if_neg hnf]
    rw [h3, Option.getD_none]
    exact growing t.alloc [] (by rw [h4]; rfl) (by simp [h1]) (by simp [h1]) (by omega)
  · have hpos := List.length_pos_iff.mpr h1
    have hf : t.cells = none ∧ t.count ≠ 0 := ⟨h4, by rw [h.count]; omega⟩
    simp only [if_pos hf]
    have hst : store (List.replicate (max (4 * (L.length + n + 1)) 8192 / 4) 0) 0
        (List.replicate t.count t.sampleSize) =
        .ok (L ++ List.replicate (max (4 * (L.length + n + 1)) 8192 / 4 - L.length) 0) := by
      unfold store
      have e : List.replicate t.count t.sampleSize = L := by rw [h.count]; exact h3.symm
      rw [e, if_pos (by simp; omega)]
      simp
    rw [hst]
    exact growing _ _ (by simp; omega) (by simp) (by simp) (by omega)
  · have hnf : ¬ (t.cells = none ∧ t.count ≠ 0) := by simp [h3]
    simp only [if_neg hnf]
    rw [h3, Option.getD_some]
    exact growing _ _ h4 h7 (by omega) h5

theorem addSamples_ok (junk : Nat → Nat) {t : Stsz} {L : List Nat} (h : Inv t L) (b : Batch)
    (hne : b.values ≠ []) (hb : L.length + b.values.length + 1 < 1073739776) :
    ∃ t', addSamples junk t b.count b.array = .ok t' ∧ t'.field = t.field ∧ Inv t' (L ++ b.values) := by
  -- facts about the array
  obtain ⟨s0, rest, harr⟩ : ∃ s0 rest, b.array = s0 :: rest := by
    cases b with
    | uniform n v => exact ⟨v, [], rfl⟩
    | each vs =>
      obtain ⟨x, xs, hx⟩ := List.exists_cons_of_ne_nil hne
      exact ⟨x, xs, hx⟩
  have hcount : b.count = b.values.length := by cases b <;> simp [Batch.count, Batch.values]
  have hvals : (if b.array.length > 1 then b.array else List.replicate b.count s0) = b.values := by
    cases b with
    | uniform n v =>
      simp only [Batch.array, List.cons.injEq] at harr
      simp [Batch.array, Batch.count, Batch.values, harr.1]
    | each vs =>
      simp only [Batch.array] at harr
      subst harr
      simp only [Batch.array, Batch.count, Batch.values]
      cases rest with
      | nil => rfl
      | cons a b => exact if_pos (by simp)
  have hpos := List.length_pos_iff.mpr hne
  have hcnt : (t.count + b.count) % 4294967296 = (L ++ b.values).length := by
    rw [h.count, hcount, List.length_append]; omega
  unfold addSamples
  rw [harr]
  simp only []
  rw [← harr]
  by_cases hv : (rest.any fun s => s ≠ s0) ∨ s0 = 0 ∨ (t.count > 0 ∧ s0 ≠ t.sampleSize)
  · rw [if_pos hv]
    obtain ⟨alloc, cells, g1, g2, g3, g4, g5⟩ := makeRoom_ok junk h b.count (by omega)
    rw [hcount] at g4
    obtain ⟨cells', k1, k2, k3⟩ := store_ok g5 (vals := b.values) (by omega)
    simp only [g1, hvals, h.count, k1]
    rw [← h.count, hcnt]
    refine ⟨_, rfl, rfl, rfl, Or.inr (Or.inr ⟨by simp [hne], rfl, cells', rfl, ?_, g3, ?_, k3⟩)⟩
    · show alloc = 4 * cells'.length
      omega
    rw [List.length_append]; omega
  · rw [if_neg hv]
    have hs0 : s0 ≠ 0 := fun e => hv (Or.inr (Or.inl e))
    have hsame : t.count > 0 → s0 = t.sampleSize := by
      intro hc
      by_cases e : s0 = t.sampleSize
      · exact e
      · exact absurd (Or.inr (Or.inr ⟨hc, e⟩)) hv
    have hrest : ∀ x ∈ b.values, x = s0 := by
      intro x hx
      cases b with
      | uniform n v =>
        simp only [Batch.array, List.cons.injEq] at harr
        rw [← harr.1]
        exact List.eq_of_mem_replicate hx
      | each vs =>
        simp only [Batch.array] at harr
        subst harr
        rcases List.mem_cons.mp hx with h | h
        · exact h
        · by_cases e : x = s0
          · exact e
          · exact absurd (Or.inl (List.any_eq_true.mpr ⟨x, h, by simp [e]⟩)) hv
    have hbv : b.values = List.replicate b.values.length s0 := List.eq_replicate_iff.mpr ⟨rfl, hrest⟩
    rw [hcnt]
    refine ⟨_, rfl, rfl, rfl, Or.inr (Or.inl ⟨by simp [hne], hs0, ?_, ?_⟩)⟩
    · rcases h.rep with ⟨h1, h2, h3, h4⟩ | ⟨h1, h2, h3, h4, h5⟩ | ⟨h1, h2, cells, h3, h4, h5, h6, h7⟩
      · subst h1; simpa using hbv
      · have := List.length_pos_iff.mpr h1
        have e := hsame (by rw [h.count]; omega)
        simp only []
        rw [List.length_append, List.replicate_append_replicate.symm, ← hbv, e, ← h3]
      · have := List.length_pos_iff.mpr h1
        have e := hsame (by rw [h.count]; omega)
        exact absurd (e.trans h2) hs0
    · rcases h.rep with ⟨h1, h2, h3, h4⟩ | ⟨h1, h2, h3, h4, h5⟩ | ⟨h1, h2, cells, h3, h4, h5, h6, h7⟩
      · exact ⟨h3, h4⟩
      · exact ⟨h4, h5⟩
      · have := List.length_pos_iff.mpr h1
        have e := hsame (by rw [h.count]; omega)
        exact absurd (e.trans h2) hs0

theorem Rep.cell {t : Stsz} {L : List Nat} (h : Rep t L) (hs : t.sampleSize = 0) {i : Nat}
    (hi : i < L.length) : cell t i = .ok L[i] := by
  rcases h.rep with ⟨h1, h2⟩ | ⟨_, rfl | ⟨cells, h1, h2, h3⟩⟩
  · exact absurd hs h1
  · simp at hi
  · unfold Stsz.cell
    have : cells[i]? = some L[i] := by
      have e : (cells.take L.length)[i]? = cells[i]? := List.getElem?_take_of_lt hi
      rw [← e, h3, List.getElem?_eq_getElem hi]
    simp [h1, this]

theorem Rep.getSampleSize {t : Stsz} {L : List Nat} (h : Rep t L) (n : Nat) :
    getSampleSize t n = if hn : 1 ≤ n ∧ n ≤ L.length then .ok (L[n - 1]'(by omega)) else .err .badParam := by
  unfold Stsz.getSampleSize
  rw [h.count]
  by_cases hn : 1 ≤ n ∧ n ≤ L.length
  · rw [if_neg (by omega), dif_pos hn]
    by_cases hs : t.sampleSize = 0
    · rw [if_neg (by simpa using hs), h.cell hs (by omega)]
    · rw [if_pos hs]
      rcases h.rep with ⟨h1, h2⟩ | ⟨h1, _⟩
      · have : ∀ x ∈ L, x = t.sampleSize := (List.eq_replicate_iff.mp h2).2
        rw [this _ (List.getElem_mem _)]
      · exact absurd h1 hs
  · rw [if_pos (by omega), dif_neg hn]

theorem sumCells_ok {t : Stsz} {L : List Nat} (h : Rep t L) (hs : t.sampleSize = 0) :
    ∀ (k i acc : Nat), i + k ≤ L.length →
      sumCells t k i (acc % 4294967296) = .ok ((acc + ((L.drop i).take k).sum) % 4294967296) := by
  intro k
  induction k with
  | zero => intro i acc _; simp [sumCells]
  | succ k ih =>
    intro i acc hik
    unfold sumCells
    simp only [h.cell hs (show i < L.length by omega)]
    have e : (acc % 4294967296 + L[i]) % 4294967296 = (acc + L[i]) % 4294967296 := by omega
    rw [e, ih (i + 1) (acc + L[i]) (by omega), List.drop_eq_getElem_cons (show i < L.length by omega),
      List.take_succ_cons, List.sum_cons, Nat.add_assoc]

theorem Rep.sizeAndOffset {t : Stsz} {L : List Nat} (h : Rep t L) {n f : Nat} (hf : 1 ≤ f)
    (hfn : f ≤ n) (hn : n ≤ L.length) :
    getSampleSizeAndOffset t n f =
      .ok (L[n - 1]'(by omega), ((L.drop (f - 1)).take (n - f)).sum % 4294967296) := by
  unfold getSampleSizeAndOffset
  rw [h.count, if_neg (by omega), if_neg (by omega)]
  by_cases hs : t.sampleSize = 0
  · rw [if_neg (by simpa using hs), h.cell hs (show n - 1 < L.length by omega)]
    have := sumCells_ok h hs (n - f) (f - 1) 0 (by omega)
    simp only [Nat.zero_mod, Nat.zero_add] at this
    simp only [this]
  · rw [if_pos hs]
    rcases h.rep with ⟨h1, h2⟩ | ⟨h1, _⟩
    · have hx : ∀ x ∈ L, x = t.sampleSize := (List.eq_replicate_iff.mp h2).2
      have e1 : (L.drop (f - 1)).take (n - f) = List.replicate (n - f) t.sampleSize :=
        List.eq_replicate_iff.mpr ⟨by simp; omega,
          fun x hxm => hx x (List.mem_of_mem_drop (List.mem_of_mem_take hxm))⟩
      rw [hx _ (List.getElem_mem _), e1, sum_replicate]
    · exact absurd h1 hs

end Verif.Stsz
