import Verif.Lemmas.Stts
import Verif.Spec.Batch

/-!
# C06 — durations given when samples are added are the durations of those samples
-/

namespace Verif.Stts

/-- The call made by the library for a batch of durations. -/
def addBatch (es : List (Nat × Nat)) (b : Batch) : Res (List (Nat × Nat)) :=
  addSamples es b.count b.array

theorem runs_foldl : ∀ (ds : List Nat) (es : List (Nat × Nat)), Runs es →
    (expand es).length + ds.length < 4294967296 → Runs (ds.foldl addSample es) := by
  intro ds
  induction ds with
  | nil => intro es h _; exact h
  | cons d ds ih =>
    intro es h hl
    simp only [List.length_cons] at hl
    exact ih _ (runs_addSample h (by omega) d) (by rw [expand_addSample (by omega)]; simp; omega)

theorem addBatch_ok {es : List (Nat × Nat)} (h : Runs es) (b : Batch)
    (hl : (expand es).length + b.values.length < 4294967296) :
    ∃ es', addBatch es b = .ok es' ∧ expand es' = expand es ++ b.values ∧ Runs es' := by
  cases b with
  | uniform n d =>
    simp only [Batch.values, List.length_replicate] at hl
    obtain ⟨es', g1, g2, g3⟩ := addSamples_ok (es := es) (n := n) (durations := [d])
      (Or.inl rfl) (by omega)
    refine ⟨es', g1, by simpa [batchDurations, Batch.values] using g3, ?_⟩
    rw [g2]
    exact runs_foldl _ _ h (by simp [batchDurations]; omega)
  | each ds =>
    simp only [Batch.values] at hl
    cases ds with
    | nil => exact ⟨es, rfl, by simp [Batch.values], h⟩
    | cons d ds =>
      obtain ⟨es', g1, g2, g3⟩ := addSamples_ok (es := es) (n := (d :: ds).length)
        (durations := d :: ds) (Or.inr ⟨Nat.le_refl _, by simp⟩) (by omega)
      have e : batchDurations (d :: ds).length (d :: ds) = d :: ds := by
        unfold batchDurations
        split
        · next h1 =>
          have : ds = [] := by simpa using h1
          subst this; rfl
        · simp
      rw [e] at g2 g3
      exact ⟨es', g1, g3, by rw [g2]; exact runs_foldl _ _ h (by omega)⟩

theorem addAll_ok : ∀ (bs : List Batch) (es : List (Nat × Nat)), Runs es →
    (expand es).length + (bs.flatMap Batch.values).length < 4294967296 →
    ∃ es', runAll addBatch es bs = .ok es' ∧
      expand es' = expand es ++ bs.flatMap Batch.values ∧ Runs es' := by
  intro bs
  induction bs with
  | nil => intro es h _; exact ⟨es, rfl, by simp, h⟩
  | cons b bs ih =>
    intro es h hl
    simp only [List.flatMap_cons, List.length_append] at hl
    obtain ⟨es', g1, g2, g3⟩ := addBatch_ok h b (by omega)
    obtain ⟨es'', k1, k2, k3⟩ := ih es' g3 (by rw [g2, List.length_append]; omega)
    refine ⟨es'', ?_, by rw [k2, g2]; simp, k3⟩
    simp only [runAll, g1, Res.bind]; exact k1

/-- Any history of additions succeeds; the table describes the concatenated durations; every run
is non-empty and maximal; the reported total is the sum of all durations modulo `2^32`. -/
theorem c06_add_history (bs : List Batch)
    (hcount : (bs.flatMap Batch.values).length < 4294967296) :
    ∃ es, runAll addBatch [] bs = .ok es ∧ expand es = bs.flatMap Batch.values ∧
      (∀ e ∈ es, 0 < e.1) ∧
      (∀ (i : Nat) (a b : Nat × Nat), es[i]? = some a → es[i + 1]? = some b → a.2 ≠ b.2) ∧
      totalDuration es = (bs.flatMap Batch.values).sum % 4294967296 := by
  obtain ⟨es, h1, h2, h3⟩ := addAll_ok bs [] ⟨by simp, by simp⟩ (by simpa using hcount)
  refine ⟨es, h1, by simpa using h2, h3.1, h3.2, ?_⟩
  rw [totalDuration_eq, h2]; simp

/-- Two batches meeting in the middle of a run. -/
example : runAll addBatch [] [.uniform 3 10, .each [10, 10, 7], .uniform 2 7, .each []] =
    .ok [(5, 10), (3, 7)] := by decide

/-- Extending the duration of the last sample changes that sample only. -/
theorem c06_extend_last (es : List (Nat × Nat)) (delta d : Nat) (before : List Nat)
    (hpos : ∀ e ∈ es, 0 < e.1) (hcount : (expand es).length + 1 < 4294967296)
    (hes : expand es = before ++ [d]) (hd : d + delta < 4294967296) :
    ∃ es', extendLast es delta = .ok es' ∧ expand es' = before ++ [d + delta] := by
  obtain ⟨es', h1, h2⟩ := expand_extendLast (delta := delta) hpos hcount (d := d) (by rw [hes]; simp)
  refine ⟨es', h1, ?_⟩
  rw [h2, hes, Nat.mod_eq_of_lt hd]; simp

example : expand [(2, 4), (3, 10)] = [4, 4, 10, 10] ++ [10] ∧
    extendLast [(2, 4), (3, 10)] 5 = .ok [(2, 4), (2, 10), (1, 15)] := by decide

/-- With no sample at all the code dereferences a NULL entry. -/
theorem c06_extend_empty : extendLast [] 5 = .ub := rfl

end Verif.Stts
