import Verif.Model.Protect
import Verif.Model.Rows

/-!
# Meta boxes of files, movies and tracks

MetaAtom.c, AdditionalMetaDataContainerAtom.c, and from ISOMeta.c: `newMeta` and the functions for new meta boxes (31-192),
relations (195-272), primary data (647-686, 887-902), the primary item (928-975) and finding a meta box (1279-1404).

The boxes in a meta box other than `hdlr`, `pitm` and those of an unknown type are of any class, which is a parameter, as is the
test for the types that `MP4CreateAtom` knows. An allocation of no bytes is taken to succeed. The position of the media data
(`setMdat`, `mdatMoved`) and the data handlers (MetaAtom.c 59-134) are left out.
-/

namespace Verif.MetaBox

open Verif.Ent
open Verif.Str (Hdlr typeHdlr)
open Verif.Rows (Mere typeMere typePitm pitmSerialize pitmParse)
open Verif.Tree (isFree)

variable {α : Type}

def typeMeta : Nat := 0x6d657461
def typeMeco : Nat := 0x6d65636f
def typeIloc : Nat := 0x696c6f63

/-! ## Boxes in a meta box -/

/-- A box in a meta box. `data` is a `MP4UnknownAtom`. -/
inductive Part (α : Type) where
  | hdlr (vf : Nat × Nat) (x : Hdlr)
  | pitm (vf : Nat × Nat) (item : Nat)
  | data (bytes : Bytes)
  | other (x : α)

/-- `MP4CreateAtom` by type, and the classes: HandlerAtom.c, PrimaryItemAtom.c, UnknownAtom.c 33-94, any other. A box is with its type.
`bytesToRead = s->size - s->bytesRead` (UnknownAtom.c 81) is a `u32` difference. -/
def parts (known : Nat → Bool) (C : Class α) : Class (Nat × Part α) where
  parse h :=
    if h.type = typeHdlr then P.as (fun v => (h.type, .hdlr v.1 v.2)) (Hdlr.parse h)
    else if h.type = typePitm then P.as (fun v => (h.type, .pitm v.1 v.2)) (pitmParse h)
    else if known h.type then P.as (fun x => (h.type, .other x)) (C.parse h)
    else do
      let r ← P.bytesRead
      let d ← getBytes w32(h.size + (4294967296 - r))
      pure (h.type, .data d)
  size
    | (_, .hdlr _ x) => x.calcSize
    | (_, .pitm _ _) => w32(12 + 2)
    | (_, .data d) => w32(8 + d.length)
    | (_, .other x) => C.size x
  ser
    | (_, .hdlr vf x) => x.serialize vf.1 vf.2
    | (_, .pitm vf item) => pitmSerialize vf.1 vf.2 item
    | (t, .data d) => if t = 0 then W.bad else serBase w32(8 + d.length) t ;; putBytes d ;; W.assertFull
    | (_, .other x) => C.ser x

/-! ## The meta box -/

/-- `hdlr`, `dinf`, `iloc`, `pitm`, `iinf`, `iref`, `idat`, `ipro`, `iprp`, `grpl`: the cases of MetaAtom.c 158-240. -/
def slots : List Nat :=
  [0x68646c72, 0x64696e66, 0x696c6f63, 0x7069746d, 0x69696e66, 0x69726566, 0x69646174, 0x6970726f, 0x69707270, 0x6772706c]

/-- `addAtom`: MetaAtom.c 151-245. A field for a type, such as `self->hdlr`, is the first box of the type in the list. `setItemsMeta` of an
`iloc` box never fails. -/
def add (l : List (Nat × Part α)) (type : Nat) (x : Nat × Part α) : Res (List (Nat × Part α)) :=
  if type ∈ slots ∧ l.any (fun p => p.1 = type) then .err .badParam else .ok (l ++ [x])

/-- MetaAtom.c 136-149. -/
def size (C : Class (Nat × Part α)) (l : List (Nat × Part α)) : Nat := listSize C 12 l

/-- MetaAtom.c 42-57. -/
def serialize (C : Class (Nat × Part α)) (version flags : Nat) (l : List (Nat × Part α)) : W :=
  serFull (size C l) typeMeta version flags ;; serList C l ;; W.assertFull

/-- What the loop of `createFromInputStream` changes: version and flags, and the list. -/
abbrev Acc (α : Type) := (Nat × Nat) × List (Nat × Part α)

/-- The loop of `createFromInputStream`: MetaAtom.c 302-334. `start` is the stream at the body of the box; it is taken to be in a file, whose
`current_offset` goes back by 4 (lines 312-323). The first argument bounds the iterations, each of which consumes bytes of the stream. -/
def loop (C : Class (Nat × Part α)) (start : Bytes) : Nat → Nat → Acc α → P (Acc α)
  | 0, _, _ => P.bad
  | n + 1, size, acc => fun s =>
    if s.read < size then
      let (child, read, vf) :=
        match parseAtom C.parse s.rest with
        | .err .badData =>
          if s.read = 12 then (parseAtom C.parse (start.drop (start.length - s.rest.length - 4)), 8, (0, 0))
          else (.err .badData, s.read, acc.1)
        | x => (x, s.read, acc.1)
      match child with
      | .ok (c, h, r) =>
        if isFree h.type then loop C start n size (vf, acc.2) ⟨r, w32(read + h.size)⟩
        else match add acc.2 h.type c with
          | .ok l => loop C start n size (vf, l) ⟨r, w32(read + h.size)⟩
          | .err e => .err e
          | .ub => .ub
      | .err e => .err e
      | .ub => .ub
    else .ok (acc, s)

/-- MetaAtom.c 292-341. -/
def parse (C : Class (Nat × Part α)) (h : Hdr) : P (Acc α) := fun s =>
  (do
    let vf ← getVersionFlags
    let v ← loop C s.rest (s.rest.length + 1) h.size (vf, [])
    let r ← P.bytesRead
    if r ≠ h.size then P.fail .badData else pure v : P (Acc α)) s

/-- A meta box: version and flags, the boxes, and whether `relatedMeco` is set. -/
structure Meta (α : Type) where
  vf : Nat × Nat
  list : List (Nat × Part α)
  related : Bool

/-- The handler type, `hdlr->handlerType`; `none` if there is no such box. The field may be an unknown atom that a program gave
(`addData`), which is then read as a handler box. -/
def handlerOf (l : List (Nat × Part α)) : Res (Option Nat) :=
  match l.find? fun p => p.1 = typeHdlr with
  | none => .ok none
  | some (_, .hdlr _ x) => .ok (some x.handler)
  | some _ => .ub

/-! ## Data and primary item -/

/-- `ISOAddPrimaryData`: ISOMeta.c 647-686. With a free `iloc` field, `addAtom` calls a function of an item location box that an unknown atom does
not have. `len + 4` is a `u32`. -/
def addData (l : List (Nat × Part α)) (type : Nat) (data : Bytes) (full : Bool) : Res (List (Nat × Part α)) :=
  if full ∧ w32(data.length + 4) < 4 then .ub
  else if type = typeIloc ∧ ¬ l.any (fun p => p.1 = typeIloc) then .ub
  else add l type (type, .data (if full then [0, 0, 0, 0] ++ data else data))

/-- `getData` (MetaAtom.c 247-290) and `ISOGetPrimaryData` (ISOMeta.c 887-902): any box of the type is taken for an unknown atom. `len -= 4` is
a `u32` difference, and `len <= 0` is `len == 0`. -/
def getData (l : List (Nat × Part α)) (type : Nat) (full : Bool) : Res Bytes :=
  match l.find? fun p => p.1 = type with
  | none => .err .notFound
  | some (_, .data d) =>
    let len := if full then w32(d.length + 4294967292) else d.length
    let src := if full then d.drop 4 else d
    if len = 0 then .err .badData
    else if len > src.length then .ub
    else .ok (src.take len)
  | some _ => .ub

/-- `ISOSetPrimaryItem`: ISOMeta.c 928-953, for an item with the given ID; `calloc` gives version and flags. -/
def setItem (l : List (Nat × Part α)) (item : Nat) : Res (List (Nat × Part α)) :=
  match l.find? fun p => p.1 = typePitm with
  | none => .ok (l ++ [(typePitm, .pitm (0, 0) item)])
  | some (_, .pitm vf _) => .ok (l.set (l.findIdx fun p => p.1 = typePitm) (typePitm, .pitm vf item))
  | some _ => .ub

/-- `ISOGetPrimaryItemID`: ISOMeta.c 955-975. -/
def getItem (l : List (Nat × Part α)) : Res Nat :=
  match l.find? fun p => p.1 = typePitm with
  | none => .err .notFound
  | some (_, .pitm _ item) => .ok w16(item)
  | some _ => .ub

/-! ## Files, movies and tracks -/

/-- `MP4TypeToString`: MP4Atoms.c 695-708, in the C locale. -/
def typeString (type : Nat) : Bytes :=
  (be 4 type).map fun c => if 32 ≤ c.toNat ∧ c.toNat < 127 then c else 46

/-- `newMeta`: ISOMeta.c 31-60. -/
def newMeta (type : Nat) : List (Nat × Part α) :=
  [(typeHdlr, .hdlr (0, 0) (Hdlr.setName ⟨0, type, 0, 0, 0, [], 0, false⟩ (typeString type) false))]

/-- What has the meta boxes. -/
inductive Kind where
  | file | movie | track
  deriving DecidableEq

/-- `meta` and `meco` of a `MP4PrivateMovieRecord`, a `MP4MovieAtom` or a `MP4TrackAtom`. -/
structure Holder (α : Type) where
  main : Option (Meta α)
  /-- `metaList` and `relationList`. -/
  meco : Option (List (Meta α) × List ((Nat × Nat) × Mere))

/-- Which meta box a program has: the first, or one of the container. -/
inductive Which where
  | main
  | extra (i : Nat)
  deriving DecidableEq, Repr

/-- The type of a meta box, `meta->type`. -/
def Meta.type (_ : Meta α) : Nat := typeMeta

/-- `ISONewFileMeta`, `ISONewMovieMeta`, `ISONewTrackMeta` (ISOMeta.c 62-192), with `addMeta` (AdditionalMetaDataContainerAtom.c 128-153):
both compare the types of the boxes. A container that was made for a meta box that is refused stays. `relatedMeco` is set by the first of the
functions; the others assign a pointer that is `NULL`. -/
def new (k : Kind) (s : Holder α) (type : Nat) : Holder α × Res Which :=
  let x : Meta α := ⟨(0, 0), newMeta type, false⟩
  match s.main with
  | none => ({ s with main := some x }, .ok .main)
  | some m =>
    if m.type = type then (s, .err .badParam)
    else
      let (ms, rs) := s.meco.getD ([], [])
      if ms.any (fun y => y.type = x.type) then ({ s with meco := some (ms, rs) }, .err .badParam)
      else ({ s with meco := some (ms ++ [{ x with related := k = .file }], rs) }, .ok (.extra ms.length))

/-- `getMeta`: AdditionalMetaDataContainerAtom.c 155-182. A meta box without a handler box is dereferenced; a type that is not found is no
error. -/
def findMeta (type : Nat) : List (Meta α) → Nat → Res (Option Nat)
  | [], _ => .ok none
  | m :: ms, i =>
    match handlerOf m.list with
    | .ok (some t) => if t = type then .ok (some i) else findMeta type ms (i + 1)
    | .ok none => .ub
    | .err e => .err e
    | .ub => .ub

/-- `ISOGetFileMeta`, `ISOGetMovieMeta`, `ISOGetTrackMeta`: ISOMeta.c 1279-1404; the meta box and its handler type. `hdlr = myMeta->hdlr` follows
`getMeta` without a test of `myMeta`. -/
def get (s : Holder α) (type : Nat) : Res (Which × Nat) :=
  match s.main with
  | none => .err .badParam
  | some m => do
    match ← handlerOf m.list with
    | none => .err .badData
    | some t =>
      if type ≠ 0 ∧ t ≠ type then
        match s.meco with
        | none => .err .badParam
        | some (ms, _) =>
          match ← findMeta type ms 0 with
          | none => .ub
          | some i => .ok (.extra i, type)
      else .ok (.main, t)

/-- A meta box by what a program has. -/
def Holder.at (s : Holder α) : Which → Option (Meta α)
  | .main => s.main
  | .extra i => match s.meco with
    | none => none
    | some (ms, _) => ms[i]?

/-- The handler type by which a relation is made: `hdlr->handlerType` without a test. -/
def handler (m : Meta α) : Res Nat :=
  match handlerOf m.list with
  | .ok (some t) => .ok t
  | .ok none => .ub
  | .err e => .err e
  | .ub => .ub

/-- `ISOAddMetaBoxRelation`: ISOMeta.c 195-232. `relatedMeco` is the container of the file, as only its meta boxes have one. -/
def addRelation (s : Holder α) (a b : Which) (relation : Nat) : Res (Holder α) :=
  match s.at a, s.at b, s.meco with
  | some x, some y, some (ms, rs) =>
    if x.related ∨ y.related then do
      let f ← handler x
      let g ← handler y
      .ok { s with meco := some (ms, rs ++ [((0, 0), ⟨f, g, w8(relation)⟩)]) }
    else .err .badParam
  | some _, some _, none => .err .badParam
  | _, _, _ => .ub

/-- `ISOGetMetaBoxRelation`: ISOMeta.c 235-272: handler types are compared with the types of the boxes; the last that matches counts. -/
def getRelation (s : Holder α) (a b : Which) : Res Nat :=
  match s.at a, s.at b, s.meco with
  | some x, some y, some (_, rs) =>
    if x.related ∨ y.related then
      .ok (rs.foldl (fun r m => if m.2.first = x.type ∧ m.2.second = y.type then m.2.relation else r) 0)
    else .err .badParam
  | some _, some _, none => .err .badParam
  | _, _, _ => .ub

/-! ## The container -/

/-- A box in the container. -/
inductive Item (α : Type) where
  | metaBox (m : Meta α)
  | mere (vf : Nat × Nat) (x : Mere)
  | other (t : Nat × Part α)

/-- Meta boxes, MetaboxRelationAtom.c, and any other. After reading, `relatedMeco` is `NULL` (`calloc`). -/
def items (C : Class (Nat × Part α)) : Class (Item α) where
  parse h :=
    if h.type = typeMeta then P.as (fun v => .metaBox ⟨v.1, v.2, false⟩) (parse C h)
    else if h.type = typeMere then P.as (fun v => .mere v.1 v.2) (Mere.parse h)
    else P.as .other (C.parse h)
  size
    | .metaBox m => size C m.list
    | .mere _ _ => w32(12 + 9)
    | .other x => C.size x
  ser
    | .metaBox m => serialize C m.vf.1 m.vf.2 m.list
    | .mere vf x => x.serialize vf.1 vf.2
    | .other x => C.ser x

/-- `addAtom`: AdditionalMetaDataContainerAtom.c 46-70; other boxes are dropped. -/
def addItem (s : List (Meta α) × List ((Nat × Nat) × Mere)) (_ : Nat) (x : Item α) : Res (List (Meta α) × List ((Nat × Nat) × Mere)) :=
  match x with
  | .metaBox m => .ok (s.1 ++ [m], s.2)
  | .mere vf x => .ok (s.1, s.2 ++ [(vf, x)])
  | .other _ => .ok s

/-- AdditionalMetaDataContainerAtom.c 72-126. -/
def meco (C : Class (Nat × Part α)) : Class (List (Meta α) × List ((Nat × Nat) × Mere)) where
  parse h := addAll (items C) addItem ([], []) h.size
  size s := listSize (items C) (listSize (items C) 8 (s.1.map .metaBox)) (s.2.map fun r => .mere r.1 r.2)
  ser s := serBase (listSize (items C) (listSize (items C) 8 (s.1.map .metaBox)) (s.2.map fun r => .mere r.1 r.2)) typeMeco ;;
    serList (items C) (s.1.map .metaBox) ;; serList (items C) (s.2.map fun r => .mere r.1 r.2) ;; W.assertFull

end Verif.MetaBox
