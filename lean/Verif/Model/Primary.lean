import Verif.Model.MetaBox
import Verif.Model.Handler

/-!
# The primary data or item of a meta box
ISOMeta.c 905-926, 1406-1452

The boxes of the meta box and its data are those of Model/MetaBox, the items those of Model/Handler, with construction method 0.
-/

namespace Verif.Primary

variable {α : Type}

/-- `ISOFindItemByID`: ISOMeta.c 1406-1452; `items` is `none` without an item location box. -/
def find (items : Option (List Iloc.Item)) (id : Nat) : Res Iloc.Item :=
  match items with
  | none => .err .notFound
  | some l => match l.find? fun a => a.id == id with
    | none => .err .notFound
    | some a => .ok a

/-- `ISOGetPrimaryItemData`: ISOMeta.c 905-926. Another error than `notFound` ends it. -/
def data (fs : Handler.Fs) (s : Handler.Box) (l : List (Nat × MetaBox.Part α)) (items : Option (List Iloc.Item)) (type : Nat) (full : Bool) :
    Res (List Hdl.Cell) :=
  match MetaBox.getData l type full with
  | .ok b => .ok (b.map some)
  | .err .notFound => (MetaBox.getItem l).bind fun id => (find items id).bind fun a => (s.item fs a).2
  | .err e => .err e
  | .ub => .ub

end Verif.Primary
