import Verif.Model.Iloc
import Verif.Model.Mdat

/-!
# Items of a metadata box
ISOMeta.c, with ItemDataAtom.c and MdatDataHandler.c for the data. A pointer to an item is its place in
the list of items, which only grows. Items in other files (`dref_index` other than 0) and items made of
other items (construction method 2) are not modelled.
-/

namespace Verif.Meta

open Iloc (Item Extent)

/-- The members of `ISOMetaAtom` (MP4Atoms.h 1915-1952) that the functions here use: `next_item_ID`
(`u16`), the item location box, the item data box and the media data box. -/
structure S where
  next : Nat
  version : Nat
  items : Option (List Item)
  idat : Option Bytes
  mdat : Mdat.T
  deriving DecidableEq, Repr

/-- `ISOCreateMetaAtom`: MetaAtom.c 362-397. -/
def create (mdat : Mdat.T) : S := ⟨1, 0, none, none, mdat⟩

def S.list (s : S) : List Item := s.items.getD []

/-- `requestItemID`: ISOMeta.c 350-387, with the box after the call. In the loop `err` is `MP4NoErr` when
an item with the same ID makes it stop. -/
def requestID (s : S) (id : Nat) : S × Res Unit :=
  if id = 0 then (s, .err .badParam)
  else if id ≥ s.next then ({ s with next := w16(id + 1) }, .ok ())
  else match s.items with
    | none => (s, .err .notFound)
    | some l => if l.any (fun a => a.id == id) then (s, .ok ()) else (s, .ok ())

/-- The new item of `ISOAddMetaItemWithID`. -/
def newItem (base dref id : Nat) : Item := ⟨id, 0, dref, base, some []⟩

/-- `ISOAddMetaItemWithID`: ISOMeta.c 398-440; the place of the new item is returned. `id` is a `u16`,
`base` a `u64`. -/
def addItemWithID (s : S) (base dref id : Nat) : S × Res Nat :=
  match requestID s id with
  | (s', .ok _) => ({ s' with items := some (s'.list ++ [newItem base dref id]) }, .ok s'.list.length)
  | (s', .err e) => (s', .err e)
  | (s', .ub) => (s', .ub)

/-- `ISOAddMetaItem`: ISOMeta.c 389-396. -/
def addItem (s : S) (base dref : Nat) : S × Res Nat := addItemWithID s base dref s.next

/-- `MP4AddListEntry(extent, item->extentList)` and the assignments to the item before it. -/
def pushExtent (a : Item) (method : Nat) (e : Extent) : Item :=
  { a with
    method := method
    base := if (a.extents.getD []).length = 0 then w64(a.base + e.offset) else a.base
    extents := some (a.extents.getD [] ++ [e]) }

/-- `ISOAddItemExtent`: ISOMeta.c 442-492. There is no data information box, so an item in another file
is refused. -/
def addExtent (junk : Nat → UInt8) (s : S) (i : Nat) (data : Bytes) : Res S :=
  match s.list[i]? with
  | none => .ub
  | some a =>
    if a.dref ≠ 0 then .err .badParam
    else (Mdat.addData junk s.mdat data).bind fun m =>
      .ok { s with mdat := m, items := some (s.list.set i (pushExtent a a.method ⟨0, s.mdat.dataSize, data.length⟩)) }

/-- `ISOAddItemExtentUsingItemData`: ISOMeta.c 537-596. `MP4HandleCat` is modelled in Model/Handle. -/
def addIdatExtent (s : S) (i : Nat) (data : Bytes) : Res S :=
  match s.list[i]? with
  | none => .ub
  | some a =>
    if (a.extents.getD []).length = 0 then
      .ok { s with version := 1, idat := some (s.idat.getD [] ++ data)
                   items := some (s.list.set i (pushExtent a 1 ⟨0, (s.idat.getD []).length, data.length⟩)) }
    else if a.method ≠ 1 then .err .badParam
    else .ok { s with idat := some (s.idat.getD [] ++ data)
                      items := some (s.list.set i (pushExtent a 1 ⟨0, (s.idat.getD []).length, data.length⟩)) }

/-- `getData`: ItemDataAtom.c 118-139. The difference is a `u32` one; `memcpy` outside the data is
undefined. -/
def idatGet (d : Bytes) (offset length : Nat) : Res Bytes :=
  if w32(d.length + (4294967296 - w32(offset))) < length then .err .badParam
  else if w32(offset) + length ≤ d.length then .ok ((d.drop w32(offset)).take length)
  else .ub

/-- The length of an extent and the check of a length 0: ISOMeta.c 1611-1647. `total` is what 0 stands
for. -/
def extentLength (total : Nat) (e : Extent) : Res Nat :=
  if e.length = 0 then
    if total >>> 32 ≠ 0 then .err .notImplemented
    else if e.offset ≠ 0 then .err .badData else .ok total
  else if e.length >>> 32 ≠ 0 then .err .notImplemented else .ok e.length

/-- The loop over the extents for data in the media data box, ISOMeta.c 1600-1688. -/
def readMdat (m : Mdat.T) : Nat → List Extent → Res Bytes
  | _, [] => .ok []
  | base, e :: es =>
    (extentLength m.dataSize e).bind fun n =>
      (Mdat.copyData m w64(e.offset + base) n).bind fun bs =>
        (readMdat m base es).bind fun r => .ok (bs ++ r)

/-- The first round of that loop, after which the offset of the first extent is taken off the base. -/
def readFirst (m : Mdat.T) (base : Nat) : List Extent → Res Bytes
  | [] => .ok []
  | e :: es =>
    (extentLength m.dataSize e).bind fun n =>
      (Mdat.copyData m w64(e.offset + base) n).bind fun bs =>
        (readMdat m w64(base + (18446744073709551616 - e.offset)) es).bind fun r => .ok (bs ++ r)

/-- The same loop for data in the item data box. The base is not used. -/
def readIdat (d : Bytes) : List Extent → Res Bytes
  | [] => .ok []
  | e :: es =>
    (extentLength d.length e).bind fun n =>
      (idatGet d e.offset n).bind fun bs => (readIdat d es).bind fun r => .ok (bs ++ r)

/-- `ISOGetItemData`: ISOMeta.c 1548-1695. The data handler for `dref_index` 0 looks at the media data
box at the time of the call. -/
def getItemData (s : S) (i : Nat) : Res Bytes :=
  match s.list[i]? with
  | none => .err .badParam
  | some a =>
    if a.method = 0 then
      if a.dref = 0 then readFirst s.mdat a.base (a.extents.getD []) else .err .invalidMedia
    else if a.method = 1 then
      match s.idat with
      | none => .err .badData
      | some d => readIdat d (a.extents.getD [])
    else .ub

/-- The first item with the ID, from place `k`. -/
def place (id : Nat) : Nat → List Item → Option Nat
  | _, [] => none
  | k, a :: l => if a.id = id then some k else place id (k + 1) l

/-- `ISOFindItemByID`: ISOMeta.c 1406-1452. -/
def findItem (s : S) (id : Nat) : Res Nat :=
  match s.items with
  | none => .err .notFound
  | some l => match place id 0 l with
    | some k => .ok k
    | none => .err .notFound

end Verif.Meta
