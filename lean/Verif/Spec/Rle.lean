import Verif.Core.Basic

/-!
# Run-length tables as plain per-sample lists
-/

namespace Verif

/-- The per-sample list described by a run-length table of `(count, value)` entries. -/
def expand {α : Type u} (es : List (Nat × α)) : List α := es.flatMap fun e => List.replicate e.1 e.2

@[simp] theorem expand_nil {α : Type u} : expand ([] : List (Nat × α)) = [] := rfl
@[simp] theorem expand_cons {α : Type u} (e : Nat × α) (es : List (Nat × α)) :
    expand (e :: es) = List.replicate e.1 e.2 ++ expand es := by simp [expand]
@[simp] theorem expand_append {α : Type u} (a b : List (Nat × α)) :
    expand (a ++ b) = expand a ++ expand b := by simp [expand]

/-- Start time of item `k` (0-based) in a list of durations. -/
def startOf (durs : List Nat) (k : Nat) : Nat := (durs.take k).sum

end Verif
