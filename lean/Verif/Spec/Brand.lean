import Verif.Spec.Box

/-!
# Specification of brands
-/

namespace Verif.Brand

inductive Call where
  /-- make a brand the major one, with a minor version -/
  | set (brand minor : Nat)
  /-- add a compatible brand -/
  | add (brand : Nat)
  deriving DecidableEq, Repr

/-- The brand of a call. -/
def Call.brand : Call → Nat
  | .set b _ => b
  | .add b => b

/-- The major brand and the minor version are those last set. -/
def major : Nat × Nat → List Call → Nat × Nat
  | m, [] => m
  | _, .set b n :: cs => major (b, n) cs
  | m, .add _ :: cs => major m cs

/-- The brands a sequence of calls makes compatible: those given, and a major brand (if there is one) that is
replaced. -/
def named : Nat → List Call → List Nat
  | _, [] => []
  | m, .set b _ :: cs => (if m = 0 then [] else [m]) ++ b :: named b cs
  | m, .add b :: cs => b :: named m cs

/-- A list without repetitions, in the order of the first occurrences. -/
def firsts : List Nat → List Nat
  | [] => []
  | b :: l => b :: (firsts l).filter (· ≠ b)

/-- The compatible brands after calls on a file that has some already. -/
def brands (m : Nat) (l : List Nat) (calls : List Call) : List Nat :=
  l ++ (firsts (named m calls)).filter (· ∉ l)

/-- A box with brands: `ftyp` and, in the standard, `styp`. -/
def layout (type major minor : Nat) (brands : List Nat) : Bytes :=
  box type (be 4 major ++ be 4 minor ++ brands.flatMap (be 4))

/-- The same with a version and flags. -/
def layoutFull (type version flags major minor : Nat) (brands : List Nat) : Bytes :=
  fullBox type version flags (be 4 major ++ be 4 minor ++ brands.flatMap (be 4))

end Verif.Brand
