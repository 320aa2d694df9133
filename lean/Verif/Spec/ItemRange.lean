import Verif.Spec.Handler

/-!
# Ranges of files

A range is where it starts, from the base of the item on, and how many bytes it has.
-/

namespace Verif.ItemRange

/-- The bytes of the ranges of `f`, one after the other. -/
def bytes (f : Bytes) (base : Nat) (ranges : List (Nat × Nat)) : Bytes := (ranges.map fun r => (f.drop (base + r.1)).take r.2).flatten

/-- The range has bytes, all of them in the file; the code copies from the first 4 GB of a file. -/
def InFile (f : Bytes) (base : Nat) (r : Nat × Nat) : Prop := 0 < r.2 ∧ base + r.1 < 2 ^ 32 ∧ base + r.1 + r.2 ≤ f.length

/-- The number of bytes of the ranges. -/
def total (ranges : List (Nat × Nat)) : Nat := (ranges.map (·.2)).sum

end Verif.ItemRange
