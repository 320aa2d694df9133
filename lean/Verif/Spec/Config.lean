import Verif.Model.Config
import Verif.Spec.Box
import Verif.Spec.Batch

/-!
# Parameter sets of a decoder configuration

What a user sees: sets are added with a kind; the `i`-th set of a kind is asked for.
-/

namespace Verif.Config

/-- The sets of one kind, in the order they were added. -/
def setsOf (adds : List (Nat × Bytes)) (kind : Nat) : List Bytes :=
  (adds.filter fun a => a.1 == kind).map Prod.snd

/-- The answer to a question for the set with number `i`, counted from 1. -/
def answer (l : List Bytes) (i : Nat) : Res Bytes :=
  if i = 0 then .err .badParam
  else match l[i - 1]? with
    | some b => .ok b
    | none => .err .badParam

/-- A parameter set: 16-bit size, bytes. -/
def nalBytes (b : Bytes) : Bytes := be 2 b.length ++ b

end Verif.Config
