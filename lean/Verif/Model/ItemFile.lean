import Verif.Model.Meta
import Verif.Model.Iref

/-!
# Items of a file: places of their data, and items made of other items

`mdatMoved` of the item locations (ItemLocationAtom.c 282-328), its use when a movie is written (MP4MovieFile.c 120-147, 218-246) and opened
(`MergeMovieData`, MP4Movies.c 279-342), `ISOAddItemExtentItem` (ISOMeta.c 598-645), and `ISOGetItemData` (1548-1695) for items made of other items too,
which Model/Meta leaves out.

Data in other files (`dref_index` other than 0) is left out: there is no data information box. The tracks, which are moved by the same calls, are in
Model/Movie.
-/

namespace Verif.ItemFile

open Iloc (Item Extent)

/-! ## Moving -/

/-- `if((x >= mdatBase) && (x < mdatEnd)) x += mdatOffset`, a sum of a `u64` and an `s32`. -/
def shift (base stop : Nat) (delta : Int) (x : Nat) : Nat :=
  if base ≤ x ∧ x < stop then u64i (x + delta) else x

/-- An item in the loop of `mdatMoved`: ItemLocationAtom.c 295-321. -/
def itemMoved (base stop : Nat) (delta : Int) (a : Item) : Item :=
  if a.method = 0 ∧ a.dref = 0 then
    { a with
      base := shift base stop delta a.base
      extents := a.extents.map fun es => es.map fun e => { e with offset := shift base stop delta e.offset } }
  else a

/-- `mdatMoved`: ItemLocationAtom.c 282-328, MetaAtom.c 349-360. -/
def moved (base stop : Nat) (delta : Int) (l : List Item) : List Item := l.map (itemMoved base stop delta)

/-- The items as they are in the file: MP4MovieFile.c 140-147; `up` is `move_up`, a `u32` passed as `s32`. -/
def written (up : Nat) (mdat : Mdat.T) (l : List Item) : List Item := moved 0 mdat.dataSize (s32 up) l

/-- And put back after the boxes are written: MP4MovieFile.c 228-235. Negating `-2^31` overflows. -/
def putBack (up : Nat) (mdat : Mdat.T) (l : List Item) : Res (List Item) :=
  if up = 2147483648 then .ub else .ok (moved up w64(mdat.dataSize + up) (- s32 up) l)

/-- The loop of `MergeMovieData`: MP4Movies.c 318-333, for the items of a meta box; as `Movie.mergeLoop`. -/
def mergeLoop (junk : Nat → Nat → UInt8) : Nat → List Mdat.T → Mdat.T → List Item → Res (Mdat.T × List Item)
  | _, [], m, l => .ok (m, l)
  | k, s :: more, m, l =>
    (Mdat.addMdat (junk k) m s).bind fun m' =>
    mergeLoop junk (k + 1) more m' (moved w32(s.dataOffset) w64(s.dataSize + w32(s.dataOffset))
      (s32 w32(w64(m.dataSize + (18446744073709551616 - w32(s.dataOffset))))) l)

/-- `MergeMovieData`: MP4Movies.c 279-342, for the items of a meta box of the file, the movie or a track. -/
def merge (junk : Nat → Nat → UInt8) (mdat : Mdat.T) (more : List Mdat.T) (l : List Item) : Res (Mdat.T × List Item) :=
  if w32(mdat.dataOffset) = 2147483648 then .ub else
  mergeLoop junk 0 more mdat (moved w32(mdat.dataOffset) w64(mdat.dataSize + w32(mdat.dataOffset)) (- s32 w32(mdat.dataOffset)) l)

/-! ## Data of items -/

/-- What an `ISOMetaAtom` has for its items: locations, item data box, references, and the media data box, which may be missing. -/
structure S where
  items : List Item
  idat : Option Bytes
  refs : Iref.S
  mdat : Option Mdat.T

/-- `'iloc'`, also the type of the references. -/
def typeIloc : Nat := 0x696c6f63

/-- `ISOFindItemByID`: ISOMeta.c 1406-1452. -/
def find (s : S) (id : Nat) : Res Item :=
  match s.items.find? fun a => a.id = id with
  | some a => .ok a
  | none => .err .notFound

/-- `ISOGetItemReference(item, 'iloc', (u16)extent_index, ..)`: ISOMeta.c 727-759. -/
def target (s : S) (a : Item) (index : Nat) : Res Item :=
  (Iref.getReference s.refs a.id typeIloc w16(index)).bind (find s)

/-- The length of an extent: ISOMeta.c 1611-1647. `get` is `ISOGetItemData` for another item. -/
def lengthOf (get : Item → Res Bytes) (s : S) (a : Item) (e : Extent) : Res Nat :=
  if e.length = 0 then
    (if a.method = 0 then match s.mdat with
      | none => .err .badParam
      | some m => if m.dataSize >>> 32 ≠ 0 then .err .notImplemented else .ok m.dataSize
    else if a.method = 1 then .ok (s.idat.getD []).length
    else if a.method = 2 then (target s a e.index).bind fun b => (get b).bind fun d => .ok d.length
    else .ok 0).bind fun n => if e.offset ≠ 0 then .err .badData else .ok n
  else if e.length >>> 32 ≠ 0 then .err .notImplemented else .ok e.length

/-- The data of an extent of `n` bytes: ISOMeta.c 1652-1682. `referenceDataLength - b->extent_offset` is a `u64` difference. With another construction method
the bytes are not set. -/
def pieceOf (get : Item → Res Bytes) (s : S) (a : Item) (base : Nat) (e : Extent) (n : Nat) : Res Bytes :=
  if a.method = 0 then match s.mdat with
    | none => .err .badParam
    | some m => Mdat.copyData m w64(e.offset + base) n
  else if a.method = 1 then Meta.idatGet (s.idat.getD []) e.offset n
  else if a.method = 2 then (target s a e.index).bind fun b => (get b).bind fun d =>
    if w64(d.length + (18446744073709551616 - e.offset)) < n then .err .badData
    else if e.offset + n ≤ d.length then .ok ((d.drop e.offset).take n)
    else .ub
  else if n = 0 then .ok [] else .ub

/-- The loop over the extents: ISOMeta.c 1598-1688. `acc` is what is in the handle, whose size is a `u32`; with `first`, the offset of the extent is
taken off the base (line 1684). -/
def loop (get : Item → Res Bytes) (s : S) (a : Item) : Bool → Nat → Bytes → List Extent → Res Bytes
  | _, _, acc, [] => .ok acc
  | first, base, acc, e :: es =>
    (lengthOf get s a e).bind fun n =>
    if acc.length + n ≥ 4294967296 then .ub else
    (pieceOf get s a base e n).bind fun bs =>
    loop get s a false (if first then w64(base + (18446744073709551616 - e.offset)) else base) (acc ++ bs) es

/-- `ISOGetItemData`: ISOMeta.c 1548-1695. The first argument bounds the depth of the calls for other items; calls without end overflow the stack. -/
def getData : Nat → S → Item → Res Bytes
  | 0, _, _ => .ub
  | n + 1, s, a =>
    if a.method = 0 ∧ a.dref ≠ 0 then .err .invalidMedia
    else if a.method = 1 ∧ s.idat = none then .err .badData
    else loop (getData n s) s a true a.base [] (a.extents.getD [])

/-- `ISOAddItemExtentItem`: ISOMeta.c 598-645, for the item at place `i` and another with the ID `to`; `offset` and `length` are `u32`. The version of the
item location box, which becomes 1, is left out. -/
def addExtentItem (s : S) (i to offset length : Nat) : Res S :=
  match s.items[i]? with
  | none => .ub
  | some a =>
    if (a.extents.getD []) ≠ [] ∧ a.method ≠ 2 then .err .badParam
    else (Iref.addReference s.refs a.id typeIloc to).bind fun (refs, index) =>
      .ok { s with refs := refs, items := s.items.set i (Meta.pushExtent a 2 ⟨index, offset, length⟩) }

end Verif.ItemFile
