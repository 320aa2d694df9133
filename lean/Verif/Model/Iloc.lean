import Verif.Core.Box

/-!
# Item locations
ItemLocationAtom.c
-/

namespace Verif.Iloc

/-- `MetaExtentLocation`: MP4Atoms.h 2004-2009, all `u64`. -/
structure Extent where
  index : Nat
  offset : Nat
  length : Nat
  deriving DecidableEq, Repr

/-- `MetaItemLocation`: MP4Atoms.h 2011-2019. `extents` is `none` for a null list. -/
structure Item where
  id : Nat
  method : Nat
  dref : Nat
  base : Nat
  extents : Option (List Extent)
  deriving DecidableEq, Repr

/-- The sizes of the fields; they are members of the box in the C code, set by `calculateSize` before
the box is written. -/
structure Widths where
  offset : Nat
  length : Nat
  base : Nat
  index : Nat
  deriving DecidableEq, Repr

/-- A null `itemList` is the same as an empty one. The widths that the parser stores are left out. -/
structure Box where
  version : Nat
  flags : Nat
  items : List Item
  deriving DecidableEq, Repr

def typeIloc : Nat := 0x696c6f63

/-- `if((v >> 32) > 0) w = 8; else if((w < 4) && (v > 0)) w = 4;` -/
def bump (w v : Nat) : Nat := if v >>> 32 > 0 then 8 else if w < 4 ∧ v > 0 then 4 else w

/-- Lines 250-261. -/
def extentWidths (w : Widths) (b : Extent) : Widths :=
  { w with offset := bump w.offset b.offset, length := bump w.length b.length, index := bump w.index b.index }

/-- Lines 227-237: the room left for the offsets of items in the same file. -/
def room (w : Widths) (a : Item) : Widths :=
  if a.dref = 0 ∧ a.extents.isSome then
    { w with offset := if w.offset < 4 then 4 else w.offset, base := if w.base < 4 then 4 else w.base }
  else w

/-- One round of the loop over the items, lines 219-264. -/
def itemWidths (w : Widths) (a : Item) : Widths :=
  (a.extents.getD []).foldl extentWidths (room { w with base := bump w.base a.base } a)

/-- Lines 208-266. -/
def widths (items : List Item) : Widths := items.foldl itemWidths ⟨0, 0, 0, 0⟩

/-- `extent_total`. -/
def extentTotal (items : List Item) : Nat := (items.map fun a => (a.extents.getD []).length).sum

/-- `calculateSize`: lines 201-280. -/
def size (b : Box) : Nat :=
  w32(12 + 4 + b.items.length * ((widths b.items).base + 6) +
    extentTotal b.items * ((widths b.items).offset + (widths b.items).length) +
    if b.version = 1 then b.items.length * 2 + extentTotal b.items * (widths b.items).index else 0)

/-- A field of 8, 4 or 0 bytes. -/
def putVar (w v : Nat) : W := if w = 8 then put64 v else if w = 4 then put32 v else W.skip

/-- Lines 139-179. -/
def putExtent (version : Nat) (w : Widths) (b : Extent) : W :=
  (if version = 1 then putVar w.index b.index else W.skip) ;; putVar w.offset b.offset ;; putVar w.length b.length

/-- Lines 103-187. -/
def putItem (version : Nat) (w : Widths) (a : Item) : W :=
  put16 a.id ;; (if version = 1 then put8 0 ;; put8 a.method else W.skip) ;; put16 a.dref ;; putVar w.base a.base ;;
  put16 (a.extents.getD []).length ;; W.each (putExtent version w) (a.extents.getD [])

/-- `serialize`: lines 76-199. -/
def serialize (b : Box) : W :=
  serFull (size b) typeIloc b.version b.flags ;;
  put8 w8(((widths b.items).offset <<< 4) ||| (widths b.items).length) ;;
  put8 w8(((widths b.items).base <<< 4) ||| (widths b.items).index) ;;
  put16 b.items.length ;; W.each (putItem b.version (widths b.items)) b.items ;; W.assertFull

/-- The `switch` statements of the parser. -/
def getVar (w : Nat) : P Nat :=
  if w = 8 then get64 else if w = 4 then get32 else if w = 0 then pure 0 else P.fail .badData

def getIndex (version : Nat) (w : Widths) : P Nat := if version = 1 then getVar w.index else pure 0

/-- Lines 424-474. -/
def getExtent (version : Nat) (w : Widths) : P Extent := do
  let index ← getIndex version w
  let offset ← getVar w.offset
  let length ← getVar w.length
  pure ⟨index, offset, length⟩

def getMethod (version : Nat) : P Nat := if version = 1 then get16 else pure 0

/-- Lines 383-475. -/
def getItem (version : Nat) (w : Widths) : P Item := do
  let id ← get16
  let method ← getMethod version
  let dref ← get16
  let base ← getVar w.base
  let n ← get16
  let extents ← P.repeat n (getExtent version w)
  pure ⟨id, w8(method), dref, base, some extents⟩

/-- `createFromInputStream`: lines 354-482. -/
def parse (_ : Hdr) : P Box := do
  let vf ← getVersionFlags
  let x ← get8
  let y ← get8
  let n ← get16
  let items ← P.repeat n (getItem vf.1 ⟨x >>> 4, x &&& 0xF, y >>> 4, y &&& 0xF⟩)
  pure ⟨vf.1, vf.2, items⟩

end Verif.Iloc
