import Verif.Core.Box

/-!
# Item properties and their associations
ItemPropertyAssociationAtom.c, ItemPropertiesAtom.c
-/

namespace Verif.Ipma

/-- `MP4ItemPropertyAssociationEntryPropertyIndex`: MP4Atoms.h 1566-1570, both `u32`. -/
structure Assoc where
  essential : Nat
  index : Nat
  deriving DecidableEq, Repr

/-- `MP4ItemPropertyAssociationEntry`: MP4Atoms.h 1572-1576. -/
structure Entry where
  item : Nat
  assocs : List Assoc
  deriving DecidableEq, Repr

structure Box where
  version : Nat
  flags : Nat
  entries : List Entry
  deriving DecidableEq, Repr

def typeIpma : Nat := 0x69706d61

/-- `calculateSize`: ItemPropertyAssociationAtom.c 130-168. -/
def size (b : Box) : Nat :=
  w32(12 + 4 + (b.entries.map fun e => (if b.version < 1 then 2 else 4) + 1 +
    (if b.flags &&& 1 ≠ 0 then 2 * e.assocs.length else e.assocs.length)).sum)

/-- Lines 105-121. -/
def putAssoc (flags : Nat) (a : Assoc) : W :=
  if flags &&& 1 ≠ 0 then put16 (a.index ||| w32(a.essential <<< 15))
  else put8 (a.index ||| w32(a.essential <<< 7))

/-- Lines 87-122. -/
def putEntry (version flags : Nat) (e : Entry) : W :=
  (if version < 1 then put16 e.item else put32 e.item) ;; put8 e.assocs.length ;; W.each (putAssoc flags) e.assocs

/-- `serialize`: lines 68-128. -/
def serialize (b : Box) : W :=
  serFull (size b) typeIpma b.version b.flags ;; put32 b.entries.length ;;
  W.each (putEntry b.version b.flags) b.entries ;; W.assertFull

/-- `x & ~m` for a mask of one bit. -/
def clear (x k : Nat) : Nat := if x.testBit k then x - 2 ^ k else x

/-- Lines 217-222: 16 bits. The flag is cut to 8 bits, so it is 0 whatever bit 15 is. -/
def wide (x : Nat) : Assoc :=
  if w8(x &&& 0x8000) = 1 then ⟨w8(x &&& 0x8000), clear x 15⟩ else ⟨w8(x &&& 0x8000), x⟩

/-- Lines 226-233: 8 bits. -/
def narrow (x : Nat) : Assoc := if x &&& 0x80 ≠ 0 then ⟨1, clear x 7⟩ else ⟨0, x⟩

/-- Lines 208-235. -/
def getAssoc (flags : Nat) : P Assoc :=
  if flags &&& 1 ≠ 0 then do let x ← get16; pure (wide x) else do let x ← get8; pure (narrow x)

def getItem (version : Nat) : P Nat := if version < 1 then get16 else get32

/-- Lines 188-236. -/
def getEntry (version flags : Nat) : P Entry := do
  let item ← getItem version
  let n ← get8
  let assocs ← P.repeat n (getAssoc flags)
  pure ⟨item, assocs⟩

/-- `createFromInputStream`: lines 170-242, with the assertion at the end. -/
def parse (h : Hdr) : P Box := do
  let vf ← getVersionFlags
  let n ← get32
  let entries ← P.repeat n (getEntry vf.1 vf.2)
  let br ← P.bytesRead
  if br = h.size then pure ⟨vf.1, vf.2, entries⟩ else P.bad

/-! ## The properties of items -/

/-- The box of item properties: the properties of `ipco` (opaque) and the association box. -/
structure Iprp (α : Type) where
  props : List α
  assoc : Box

/-- The last entry of the item: the loop at ItemPropertiesAtom.c 96-104 does not stop at the first. -/
def lastEntry (item : Nat) : List Entry → Option Entry
  | [] => none
  | e :: l => match lastEntry item l with
    | some f => some f
    | none => if e.item = item then some e else none

/-- The association added to the last entry of the item. -/
def updateLast (item : Nat) (a : Assoc) : List Entry → List Entry
  | [] => []
  | e :: l => if (lastEntry item l).isSome then e :: updateLast item a l
    else if e.item = item then { e with assocs := e.assocs ++ [a] } :: l else e :: l

/-- `addItemProperty`: ItemPropertiesAtom.c 63-129. The association box is created when it is missing,
with version and flags 0. -/
def addProperty {α : Type} (b : Iprp α) (p : α) (item essential : Nat) : Iprp α :=
  { props := b.props ++ [p]
    assoc := { b.assoc with
      entries := if (lastEntry item b.assoc.entries).isSome
        then updateLast item ⟨essential, w16(b.props.length + 1)⟩ b.assoc.entries
        else b.assoc.entries ++ [⟨item, [⟨essential, w16(b.props.length + 1)⟩]⟩] } }

def lookup {α : Type} (props : List α) : List Assoc → Res (List α)
  | [] => .ok []
  | a :: as =>
    match props[pred32 a.index]? with
    | some p => (lookup props as).bind fun l => .ok (p :: l)
    | none => .err .badParam

/-- `getPropertiesOfItem`: ItemPropertiesAtom.c 131-181. `MP4GetListEntry` refuses an index outside
the list (MP4LinkedList.c). -/
def properties {α : Type} (b : Iprp α) (item : Nat) : Res (List α) :=
  match lastEntry item b.assoc.entries with
  | some e => lookup b.props e.assocs
  | none => .ok []

end Verif.Ipma
