import Verif.Spec.Iinf
import Verif.Model.ItemAsk

/-!
# Specification of the answers about items
-/

namespace Verif.Iinf

/-- The items information was set for, once for each time. -/
def setItems (calls : List Call) : List Nat :=
  calls.filterMap fun c => match c with
    | .set id _ _ _ _ => some id
    | _ => none

def when {α : Type} (b : Bool) (v : α) : Option α := if b then some v else none

/-- The answer about an item of which `i` is known, and no content type or encoding. -/
def infoAnswer (a : Ask) : Option Info → Res Answer
  | none => .err .notFound
  | some i => .ok ⟨when a.protection i.protection, when a.name i.name, when a.contentType [], when a.contentEncoding []⟩

def Info.type (i : Info) : Option Nat :=
  match i.kind with
  | .typed t _ => some t
  | _ => none

/-- The type of an item, if it has one. -/
def typeOf (i : Option Info) : Option Nat := i.bind Info.type

/-- The items with a type, in their order. -/
def ofType (m : Known) (items : List Nat) (type : Nat) : List Nat := items.filter fun id => typeOf (m id) = some type

/-- An entry that has no place for a content type in a file. -/
def Untold (i : Option Info) : Prop := ∃ t, typeOf i = some t ∧ t ≠ mime

end Verif.Iinf
