import Verif.Model.Handler
import Verif.Model.Meta

/-!
# Items that refer to ranges of other files
ISOMeta.c 398-440, 494-535
-/

namespace Verif.ItemRange

/-- `ISOAddItemExtentReference`: ISOMeta.c 494-535. `dinf` is whether the meta box has a data information box; `offset` and `length` are `u64`. -/
def add (dinf : Bool) (a : Iloc.Item) (offset length : Nat) : Res Iloc.Item :=
  if a.dref ≠ 0 then
    if dinf then .ok (Meta.pushExtent a a.method ⟨0, offset, length⟩) else .err .badParam
  else .err .badParam

/-- One call for each of the ranges, until one fails. -/
def addAll (dinf : Bool) : Iloc.Item → List (Nat × Nat) → Res Iloc.Item
  | a, [] => .ok a
  | a, (offset, length) :: l => (add dinf a offset length).bind fun a => addAll dinf a l

/-- A new item (ISOMeta.c 398-440) with its ranges. -/
def make (dinf : Bool) (base dref id : Nat) (ranges : List (Nat × Nat)) : Res Iloc.Item := addAll dinf (Meta.newItem base dref id) ranges

/-- `ISOGetItemData` (Model/Handler) of a new item with its ranges, after the items `before` have been read. -/
def data (fs : Handler.Fs) (s : Handler.Box) (before : List Iloc.Item) (a : Iloc.Item) : Option (Res (List Hdl.Cell)) :=
  (s.run fs (before ++ [a])).getLast?

end Verif.ItemRange
