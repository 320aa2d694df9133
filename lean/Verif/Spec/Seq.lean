import Verif.Model.LinkedList

/-!
# Specification for C01: the same calls on an ordinary finite sequence
-/

namespace Verif.LL.Spec

/-- One call on a plain sequence: the answer and the new sequence. -/
def step {α : Type u} (xs : List α) : Op α → Res (Out α) × List α
  | .append a => (.ok .none, xs ++ [a])
  | .prepend a => (.ok .none, a :: xs)
  | .get i => match xs[i]? with
    | some a => (.ok (.item a), xs)
    | none => (.err .badParam, xs)
  | .delete i =>
    if i < xs.length then (.ok .none, xs.take i ++ xs.drop (i + 1)) else (.err .badParam, xs)
  | .count => (.ok (.num xs.length), xs)

/-- The answers of a sequence of calls. -/
def run {α : Type u} (xs : List α) : List (Op α) → List (Res (Out α))
  | [] => []
  | op :: ops => (step xs op).1 :: run (step xs op).2 ops

end Verif.LL.Spec
