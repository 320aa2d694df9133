import Verif.Core.Basic

/-!
# Histories of batches of samples
-/

namespace Verif

/-- One value for each sample of a batch: either the same for all `count` samples, or given one by
one. -/
inductive Batch
  | uniform (count value : Nat)
  | each (values : List Nat)
  deriving DecidableEq, Repr

/-- The per-sample values a batch stands for. -/
def Batch.values : Batch → List Nat
  | .uniform n v => List.replicate n v
  | .each vs => vs

/-- The sample count passed to the library. -/
def Batch.count : Batch → Nat
  | .uniform n _ => n
  | .each vs => vs.length

/-- The array in the handle passed to the library: one element for a uniform batch. -/
def Batch.array : Batch → List Nat
  | .uniform _ v => [v]
  | .each vs => vs

/-- Apply an operation for each element of a history; the first failure ends it. -/
def runAll {σ β : Type} (f : σ → β → Res σ) : σ → List β → Res σ
  | s, [] => .ok s
  | s, b :: bs => (f s b).bind fun s' => runAll f s' bs

/-- An invariant between state and history so far, kept by every step, holds at the end. -/
theorem runAll_inv {σ β : Type} {f : σ → β → Res σ} {ok : β → Prop} {R : σ → List β → Prop}
    (step : ∀ s h b, ok b → R s h → ∃ s', f s b = .ok s' ∧ R s' (h ++ [b])) :
    ∀ (bs : List β) (s : σ) (h : List β), R s h → (∀ b ∈ bs, ok b) →
      ∃ s', runAll f s bs = .ok s' ∧ R s' (h ++ bs) := by
  intro bs
  induction bs with
  | nil => intro s h hR _; exact ⟨s, rfl, by simpa using hR⟩
  | cons b bs ih =>
    intro s h hR hok
    obtain ⟨s', h1, h2⟩ := step s h b (hok b (by simp)) hR
    obtain ⟨s'', g1, g2⟩ := ih s' (h ++ [b]) h2 fun x hx => hok x (by simp [hx])
    refine ⟨s'', ?_, by simpa using g2⟩
    simp only [runAll, h1, Res.bind]
    exact g1

end Verif
