import Verif.Model.Entries
import Verif.Model.Ipma

/-!
# The item properties box in files
ItemPropertiesAtom.c, ItemPropertyContainerAtom.c, and from ISOMeta.c `ISOAddMetaItemProperty` and `ISOGetProperitesOfMetaItem`.

The properties are boxes of any class, which is a parameter. A pointer to a box in `atomList` is its place in the list, which only
grows. Of the meta box only the pointer to the item properties box is modelled.
-/

namespace Verif.Iprp

open Verif.Ent

variable {α : Type}

def typeIprp : Nat := 0x69707270
def typeIpco : Nat := 0x6970636f

/-- A box in the item properties box. -/
inductive Sub (α : Type) where
  | ipco (l : List α)
  | ipma (b : Ipma.Box)
  | other (x : α)
  deriving DecidableEq, Repr

/-- ItemPropertyContainerAtom.c 30-81. -/
def ipco (C : Class α) : Class (List α) where
  parse h := addAll C (fun l _ c => .ok (l ++ [c])) [] h.size
  size l := listSize C 8 l
  ser l := serBase (listSize C 8 l) typeIpco ;; serList C l ;; W.assertFull

/-- `MP4CreateAtom` by type, and the classes of ItemPropertyContainerAtom.c, ItemPropertyAssociationAtom.c, and of other boxes. -/
def sub (C : Class α) : Class (Sub α) where
  parse h :=
    if h.type = typeIpco then P.as .ipco ((ipco C).parse h)
    else if h.type = Ipma.typeIpma then P.as .ipma (Ipma.parse h)
    else P.as .other (C.parse h)
  size
    | .ipco l => (ipco C).size l
    | .ipma b => Ipma.size b
    | .other x => C.size x
  ser
    | .ipco l => (ipco C).ser l
    | .ipma b => Ipma.serialize b
    | .other x => C.ser x

/-- `MP4ItemPropertiesAtom`: `atomList`, and the places that `ipco` and `ipma` point to. -/
structure T (α : Type) where
  list : List (Sub α)
  ipco : Nat
  ipma : Option Nat
  deriving DecidableEq, Repr

/-- `MP4CreateItemPropertiesAtom`: ItemPropertiesAtom.c 229-263. An empty container is in the list from the beginning. -/
def create : T α := ⟨[.ipco []], 0, none⟩

/-- `addAtom`: ItemPropertiesAtom.c 38-62. -/
def addAtom (x : T α) (_ : Nat) (c : Sub α) : Res (T α) :=
  .ok <| match c with
  | .ipco _ => { x with list := x.list ++ [c], ipco := x.list.length }
  | .ipma _ => { x with list := x.list ++ [c], ipma := some x.list.length }
  | .other _ => { x with list := x.list ++ [c] }

/-- ItemPropertiesAtom.c 185-227. -/
def iprp (C : Class α) : Class (T α) where
  parse h := addAll (sub C) addAtom create h.size
  size x := listSize (sub C) 8 x.list
  ser x := serBase (listSize (sub C) 8 x.list) typeIprp ;; serList (sub C) x.list ;; W.assertFull

/-- ItemPropertiesAtom.c 79-85: the association box is made when it is missing. -/
def needIpma (x : T α) : T α :=
  match x.ipma with
  | some _ => x
  | none => { x with list := x.list ++ [.ipma ⟨0, 0, []⟩], ipma := some x.list.length }

/-- `addItemProperty`: ItemPropertiesAtom.c 64-130. The rest is in Model/Ipma. -/
def addItemProperty (x : T α) (p : α) (item essential : Nat) : Res (T α) :=
  let x := needIpma x
  match x.ipma with
  | none => .ub
  | some m => match x.list[x.ipco]?, x.list[m]? with
    | some (.ipco ps), some (.ipma b) =>
      let y := Ipma.addProperty ⟨ps, b⟩ p item essential
      .ok { x with list := (x.list.set x.ipco (.ipco y.props)).set m (.ipma y.assoc) }
    | _, _ => .ub

/-- `getPropertiesOfItem`: ItemPropertiesAtom.c 132-183. Without an association box it reads through a null pointer. -/
def getPropertiesOfItem (x : T α) (item : Nat) : Res (List α) :=
  match x.ipma with
  | none => .ub
  | some m => match x.list[x.ipco]?, x.list[m]? with
    | some (.ipco ps), some (.ipma b) => Ipma.properties ⟨ps, b⟩ item
    | _, _ => .ub

/-- `ISOAddMetaItemProperty`: ISOMeta.c 1994-2028. `x` is `meta->iprp`; the ID of an item is a `u16`, `essential` a `u8`. -/
def addMetaItemProperty (x : Option (T α)) (p : α) (item essential : Nat) : Res (Option (T α)) :=
  (addItemProperty (x.getD create) p item essential).bind fun y => .ok (some y)

/-- `ISOGetProperitesOfMetaItem`: ISOMeta.c 2030-2084. The box is made when it is missing. -/
def propertiesOfMetaItem (x : Option (T α)) (item : Nat) : Res (List α) := getPropertiesOfItem (x.getD create) item

/-- A file: the box is written if there is one, and read. -/
def reopen (C : Class α) : Option (T α) → Res (Option (T α))
  | none => .ok none
  | some x => (runW ((iprp C).size x) ((iprp C).ser x)).bind fun bytes =>
      (parseAtom (iprp C).parse bytes).bind fun r => .ok (some r.1)

end Verif.Iprp
