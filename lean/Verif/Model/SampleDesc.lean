import Verif.Model.Entries
import Verif.Model.Descr
import Verif.Model.Rows
import Verif.Model.Jp2

/-!
# Sample descriptions built and edited in handles

ISOSampleDescriptions.c 88-833 with `MP4GetListEntryAtom` and `MP4DeleteListEntryAtom` (MP4Atoms.c 710-766).

A handle that is not NULL is the list of its bytes. The functions that edit one parse the entry in it, change the entry and
write it again; when they fail after `MP4SetHandleSize` the handle has another size and some new bytes, which is not
modelled: the result is the error. The block of a box is given back by `destroy`; to read a block that was given back is
undefined. Members of a structure at other places than those of the structure that was allocated are undefined too.
Allocations succeed, but for the one of `MP4SetHandleSize` in `newDesc`.
-/

namespace Verif.Sde

open Verif.Ent Verif.Descr
open Verif.Rows (Btrt Damr dawpSerialize dawpParse typeBtrt typeDamr typeDawp)
open Verif.Jp2 (H263 typeD263)

variable {α β : Type}

/-! ## Boxes in an entry -/

/-- `TGPPBitRateAtomType`: MP4Atoms.h 150. -/
def typeBitr : Nat := fcc 'b' 'i' 't' 'r'

/-- A box of a class that the functions below make or open, or of any other class. -/
inductive Bx (α : Type) where
  | esds (version flags : Nat) (d : Option Es)
  | rate (type : Nat) (x : Btrt)
  | damr (x : Damr)
  | dawp (vendor decoder : Nat)
  | d263 (x : H263 α)
  | other (type : Nat) (x : α)

/-- The member `type`. -/
def Bx.type : Bx α → Nat
  | .esds .. => typeEsds
  | .rate t _ => t
  | .damr _ => typeDamr
  | .dawp .. => typeDawp
  | .d263 _ => typeD263
  | .other t _ => t

/-- `MP4CreateAtom` (MP4Atoms.c 250-640) on the types of these classes, and their functions; `C` has those of the others. -/
def boxes (C : Class α) : Class (Bx α) where
  size
    | .esds _ _ none => 12
    | .esds _ _ (some e) => esdsSize e
    | .rate t _ => Btrt.calcSize t
    | .damr _ => 17
    | .dawp _ _ => 13
    | .d263 x => x.size C
    | .other _ x => C.size x
  ser
    | .esds v f none => serFull 12 typeEsds v f ;; W.assertFull
    | .esds v f (some e) => esdsSerialize v f e
    | .rate t x => x.serialize t
    | .damr x => x.serialize
    | .dawp v d => dawpSerialize v d
    | .d263 x => x.serialize C
    | .other _ x => C.ser x
  parse h :=
    if h.type = typeEsds then P.as (fun p => .esds p.1.1 p.1.2 p.2) (esdsParse h)
    else if h.type = typeBtrt ∨ h.type = typeBitr then P.as (.rate h.type) (Btrt.parse h)
    else if h.type = typeDamr then P.as .damr (Damr.parse h)
    else if h.type = typeDawp then P.as (fun p => .dawp p.1 p.2) (dawpParse h)
    else if h.type = typeD263 then P.as .d263 (H263.parse C h)
    else P.as (.other h.type) (C.parse h)

/-! ## Entries as the code sees them, whatever their class -/

def anyType : Any β → Nat
  | .plain x => x.type
  | .visual x => x.type
  | .audio x => x.type
  | .encVisual x => x.type
  | .encAudio x => x.type
  | .restricted x => x.type
  | .xmlMeta x => x.type
  | .textMeta x => x.type
  | .mebx x => x.type
  | .generic x => x.type

def setAnyType (t : Nat) : Any β → Any β
  | .plain x => .plain { x with type := t }
  | .visual x => .visual { x with type := t }
  | .audio x => .audio { x with type := t }
  | .encVisual x => .encVisual { x with type := t }
  | .encAudio x => .encAudio { x with type := t }
  | .restricted x => .restricted { x with type := t }
  | .xmlMeta x => .xmlMeta { x with type := t }
  | .textMeta x => .textMeta { x with type := t }
  | .mebx x => .mebx { x with type := t }
  | .generic x => .generic { x with type := t }

/-- `ExtensionAtomList`, at the same place in all structures (MP4Atoms.h 828-831). -/
def anyExt : Any β → List β
  | .plain x => x.ext
  | .visual x => x.ext
  | .audio x => x.ext
  | .encVisual x => x.ext
  | .encAudio x => x.ext
  | .restricted x => x.ext
  | .xmlMeta x => x.ext
  | .textMeta x => x.ext
  | .mebx x => x.ext
  | .generic x => x.ext

def setAnyExt (l : List β) : Any β → Any β
  | .plain x => .plain { x with ext := l }
  | .visual x => .visual { x with ext := l }
  | .audio x => .audio { x with ext := l }
  | .encVisual x => .encVisual { x with ext := l }
  | .encAudio x => .encAudio { x with ext := l }
  | .restricted x => .restricted { x with ext := l }
  | .xmlMeta x => .xmlMeta { x with ext := l }
  | .textMeta x => .textMeta { x with ext := l }
  | .mebx x => .mebx { x with ext := l }
  | .generic x => .generic { x with ext := l }

/-- The `defaultType` of `sampleEntryHToAtomPtr`. -/
inductive Dflt
  | generic
  | visual

/-- `MP4SampleEntryProtos`: ISOSampleDescriptions.c 49-67. -/
def protos : List Nat := [fcc 'm' 'p' '4' 's', fcc 'm' 'p' '4' 'v', fcc 'm' 'p' '4' 'a', fcc 'e' 'n' 'c' 'a', fcc 'e' 'n' 'c' 'v',
  fcc 'm' 'e' 't' 'x', fcc 'm' 'e' 't' 't', fcc 's' 'a' 'm' 'r', fcc 's' 'a' 'w' 'b', fcc 's' 'a' 'w' 'p', fcc 's' '2' '6' '3',
  fcc 'r' 'e' 's' 'v', fcc 'm' 'e' 'b' 'x', fcc 'a' 'v' 'c' '1', fcc 'h' 'v' 'c' '1', fcc 'v' 'v' 'i' '1', fcc 'v' 'v' 'c' '1',
  fcc 'v' 'v' 's' '1']

/-- The class by the type, or the default: MP4Atoms.c 848-866. -/
def parseBy (K : Class β) (d : Dflt) (h : Hdr) : P (Any β) :=
  if h.type ∈ protos then anyParse K h
  else match d with
    | .generic => P.as .generic ((generic K).parse h)
    | .visual => P.as .visual ((visual K).parse h)

/-- `sampleEntryHToAtomPtr`: ISOSampleDescriptions.c 88-111. -/
def openEntry (K : Class β) (d : Dflt) (input : Bytes) : Res (Any β) :=
  match parseAtom (parseBy K d) input with
  | .ok (e, _, _) => .ok e
  | .err e => .err e
  | .ub => .ub

/-- `atomPtrToSampleEntryH`: ISOSampleDescriptions.c 113-128. -/
def store (K : Class β) (e : Any β) : Res Bytes := runW (anySize K e) (anySer K e)

/-! ## Boxes in the list -/

/-- A block of a box, which may have been given back. -/
inductive Cell (β : Type) where
  | live (b : β)
  | freed

/-- `MP4GetListEntryAtom`: MP4Atoms.c 710-738; the place in the list. -/
def findAt (type : Nat) : List (Bx α) → Res Nat
  | [] => .err .notFound
  | b :: l => if b.type = type then .ok 0 else do
    let i ← findAt type l
    .ok (i + 1)

/-- `MP4DeleteListEntryAtom`: MP4Atoms.c 740-766. -/
def deleteBox (type : Nat) : List (Cell (Bx α)) → Res (List (Cell (Bx α)))
  | [] => .err .notFound
  | .freed :: _ => .ub
  | .live b :: l => if b.type = type then .ok l else do
    let l ← deleteBox type l
    .ok (.live b :: l)

/-- `DESTROY_ATOM_LIST_F`, in the `destroy` functions of all entries: MP4Impl.h 665-680. -/
def destroyAll (l : List (Cell (Bx α))) : List (Cell (Bx α)) := l.map fun _ => .freed

/-! ## Editing -/

/-- The box found by `MP4GetListEntryAtom(…, MP4ESDAtomType, …)`, and its descriptor: ISOSampleDescriptions.c 285-295,
323-333. A box with the type and of another class cannot be in the list. -/
def findEs (l : List (Bx α)) : Res (Nat × Nat × Nat × Es) :=
  match findAt typeEsds l with
  | .ok i =>
    match l[i]? with
    | some (.esds v f (some e)) => .ok (i, v, f, e)
    | some (.esds _ _ none) => .err .invalidMedia
    | _ => .ub
  | .err .notFound => .err .badParam
  | .err e => .err e
  | .ub => .ub

/-- `MP4SetSampleDescriptionPriority`: ISOSampleDescriptions.c 275-305. -/
def setPriority (C : Class α) (input : Bytes) (priority : Nat) : Res Bytes := do
  let x ← openEntry (boxes C) .generic input
  let (i, v, f, e) ← findEs (anyExt x)
  store (boxes C) (setAnyExt ((anyExt x).set i (.esds v f (some { e with priority := priority }))) x)

/-- `MP4AddDescToSampleDescription`: ISOSampleDescriptions.c 308-357. -/
def addDesc (C : Class α) (input desc : Bytes) : Res Bytes := do
  let x ← openEntry (boxes C) .generic input
  let (i, v, f, e) ← findEs (anyExt x)
  let (c, _) ← getDesc getChild ⟨desc, 0⟩
  let e ← addDescriptor e c
  store (boxes C) (setAnyExt ((anyExt x).set i (.esds v f (some e))) x)

/-- `ISOSetSampleDescriptionDimensions`: ISOSampleDescriptions.c 359-377; the structure is taken for one of
`MP4VisualSampleEntryAtom`. -/
def setDims (C : Class α) (input : Bytes) (width height : Nat) : Res Bytes := do
  let x ← openEntry (boxes C) .visual input
  match x with
  | .visual x => store (boxes C) (.visual { x with fields := { x.fields with width := width, height := height } })
  | _ => .ub

/-- `ISOGetSampleDescriptionDimensions`: ISOSampleDescriptions.c 413-435. -/
def getDims (C : Class α) (input : Bytes) : Res (Nat × Nat) := do
  let x ← openEntry (boxes C) .visual input
  match x with
  | .restricted x => .ok (w16(x.fields.width), w16(x.fields.height))
  | .visual x => if x.type = fcc 'r' 'e' 's' 'v' then .ub else .ok (w16(x.fields.width), w16(x.fields.height))
  | _ => .ub

/-- `ISOSetSampleDescriptionType`: ISOSampleDescriptions.c 379-410. The mask with the space is `type / 256 * 256 + 32`. The
box is destroyed before it is looked for in the list. -/
def setType (C : Class α) (input : Bytes) (type : Nat) : Res Bytes := do
  let x ← openEntry (boxes C) .generic input
  let x := setAnyType type x
  if type / 256 * 256 + 32 ≠ fcc 'm' 'p' '4' ' ' then
    let i ← findAt typeEsds (anyExt x)
    let l ← deleteBox typeEsds (((anyExt x).map Cell.live).set i .freed)
    store (boxes C) (setAnyExt (l.filterMap fun | .live b => some b | .freed => none) x)
  else store (boxes C) x

/-- `ISOGetSampleDescriptionType`: ISOSampleDescriptions.c 438-451. -/
def getType (C : Class α) (input : Bytes) : Res Nat := do
  let x ← openEntry (boxes C) .generic input
  .ok (anyType x)

/-- `ISOAddAtomToSampleDescription`: ISOSampleDescriptions.c 518-538, with the block of the caller's box when it returns. -/
def addBox (C : Class α) (input : Bytes) (b : Bx α) : Res Bytes × Cell (Bx α) :=
  match openEntry (boxes C) .generic input with
  | .err e => (.err e, .live b)
  | .ub => (.ub, .live b)
  | .ok x =>
    let l := anyExt x ++ [b]
    (store (boxes C) (setAnyExt l x), ((destroyAll (l.map Cell.live)).getLast?).getD (.live b))

/-- `ISOGetAtomFromSampleDescription`: ISOSampleDescriptions.c 541-554: the block to which `*outAtom` points when it
returns, with the entry destroyed. -/
def getBox (C : Class α) (input : Bytes) (type : Nat) : Res (Cell (Bx α)) := do
  let x ← openEntry (boxes C) .generic input
  let i ← findAt type (anyExt x)
  match (destroyAll ((anyExt x).map Cell.live))[i]? with
  | some c => .ok c
  | none => .ub

/-- `ISOAddBitrateToSampleDescription`: ISOSampleDescriptions.c 557-584. -/
def addBitrate (C : Class α) (input : Bytes) (is3gpp : Bool) (buffer max avg : Nat) : Res Bytes := do
  let x ← openEntry (boxes C) .generic input
  store (boxes C) (setAnyExt (anyExt x ++ [.rate (if is3gpp then typeBitr else typeBtrt) ⟨buffer, max, avg⟩]) x)

/-! ## New descriptions -/

/-- What the functions see of a track: `newTrackFlags`, the time scale of the media (`MP4GetTrackMedia` and
`MP4GetMediaTimeScale`), and the outcome of `MP4AddTrackReferenceWithID`. -/
structure Track where
  flags : Nat
  timeScale : Res Nat
  refer : Nat → Res Unit

/-- `newTrackFlags & MP4NewTrackIsVisual` (2), `& MP4NewTrackIsAudio` (4): MP4Movies.h 77-78. -/
def Track.isVisual (t : Track) : Bool := t.flags / 2 % 2 = 1
def Track.isAudio (t : Track) : Bool := t.flags / 4 % 2 = 1

/-- `MP4CreateVisualSampleEntryAtom`: VisualSampleEntryAtom.c 116-148. -/
def newVideo : Video := ⟨List.replicate 16 0, 0x140, 0xf0, 0x00480000, 0x00480000, 0, 1, 0, List.replicate 31 0, 0x18, 4294967295⟩

/-- `MP4CreateAudioSampleEntryAtom`: AudioSampleEntryAtom.c 140-166, with the time scale that is set next. -/
def newAudio (timeScale : Nat) : Audio := ⟨List.replicate 8 0, 2, 16, 0, timeScale, 0⟩

/-- The six bytes as `calloc` leaves them. -/
def zeros : Bytes := [0, 0, 0, 0, 0, 0]

/-- The entry by the flags of the track: ISOSampleDescriptions.c 177-206, 472-498. `type` is set when it is given. -/
def newEntry (t : Track) (dref : Nat) (type : Option Nat) (ext : List (Bx α)) : Res (Any (Bx α)) :=
  if t.isVisual then .ok (.visual ⟨type.getD (fcc 'm' 'p' '4' 'v'), zeros, dref, newVideo, ext⟩)
  else if t.isAudio then do
    let s ← t.timeScale
    .ok (.audio ⟨type.getD (fcc 'm' 'p' '4' 'a'), zeros, dref, (newAudio (if s ≤ 0xFFFF then s else 0), ⟨0, 0, 0, 0⟩), ext⟩)
  else .ok (.plain ⟨type.getD (fcc 'm' 'p' '4' 's'), zeros, dref, (), ext⟩)

/-- The descriptor of the decoder specific information: ISOSampleDescriptions.c 222-242. Of another class than the default
one it is outside the model. -/
def getInfo : Option Bytes → Res (Option Default)
  | none => .ok none
  | some h => do
    let (d, _) ← getDesc getPlain ⟨h, 0⟩
    .ok (some d)

/-- The steps of ISOSampleDescriptions.c 208-260, from the creation of the box up to its entry into the list. -/
def makeEs (t : Track) (objectType streamType buffer max avg : Nat) (info : Option Bytes) (ocr : Nat) : Res Es := do
  let i ← getInfo info
  if ocr ≠ 0 then t.refer ocr
  .ok ⟨0, 0, 0, [], 0, some ⟨objectType, streamType, false, buffer, max, avg, i⟩,
    some { Sl.zero with predefined := 2, timestamps := true }, none, none, [], [], [], []⟩

/-- What the code after `bail` makes of the result: ISOSampleDescriptions.c 266-272. -/
def bail (l : List (Bx α)) (out : Option Bytes) : Res (Option Bytes) := do
  let _ ← deleteBox typeEsds (l.map Cell.live)
  .ok out

/-- `MP4NewSampleDescriptionWithOCRAssociation`: ISOSampleDescriptions.c 141-272. `mem` tells whether there is memory for
the handle. `none` is no error, and a handle that was not written. -/
def newDesc (C : Class α) (mem : Bool) (t : Track) (dref objectType streamType buffer max avg : Nat) (info : Option Bytes)
    (ocr : Nat) : Res (Option Bytes) :=
  match newEntry (α := α) t dref none [] with
  | .err e => .err e
  | .ub => .ub
  | .ok x =>
    match makeEs t objectType streamType buffer max avg info ocr with
    | .err _ => bail (anyExt x) none
    | .ub => .ub
    | .ok e =>
      let l := anyExt x ++ [.esds 0 0 (some e)]
      match (if mem then store (boxes C) (setAnyExt l x) else .err .noMemory) with
      | .ok b => bail l (some b)
      | .err _ => bail l none
      | .ub => .ub

/-- `ISONewGeneralSampleDescription`: ISOSampleDescriptions.c 453-515. -/
def newGeneral (C : Class α) (t : Track) (dref type : Nat) (b : Option (Bx α)) : Res Bytes := do
  let x ← newEntry t dref (some type) b.toList
  store (boxes C) x

/-- `ISONewXMLMetaDataSampleDescription`: ISOSampleDescriptions.c 587-639. A string is its bytes before the NUL. -/
def newXml (C : Class α) (dref : Nat) (encoding ns location : Option Bytes) : Res Bytes :=
  store (boxes C) (.xmlMeta ⟨fcc 'm' 'e' 't' 'x', zeros, dref,
    ⟨encoding.map (· ++ [0]), ns.map (· ++ [0]), location.map (· ++ [0])⟩, []⟩)

/-- `ISONewTextMetaDataSampleDescription`: ISOSampleDescriptions.c 642-684. -/
def newText (C : Class α) (dref : Nat) (encoding format : Option Bytes) : Res Bytes :=
  store (boxes C) (.textMeta ⟨fcc 'm' 'e' 't' 't', zeros, dref, ⟨encoding.map (· ++ [0]), format.map (· ++ [0])⟩, []⟩)

/-- `ISONewH263SampleDescription`: ISOSampleDescriptions.c 687-727. -/
def newH263 (C : Class α) (t : Track) (dref vendor version level profile : Nat) : Res Bytes :=
  if t.isVisual then store (boxes C) (.visual ⟨fcc 's' '2' '6' '3', zeros, dref, newVideo, [.d263 ⟨vendor, version, level, profile, []⟩]⟩)
  else .err .badParam

/-- `ISONewAMRSampleDescription`: ISOSampleDescriptions.c 730-782. -/
def newAmr (C : Class α) (t : Track) (dref : Nat) (wide : Bool) (x : Damr) : Res Bytes :=
  if t.isAudio then do
    let s ← t.timeScale
    store (boxes C) (.audio ⟨if wide then fcc 's' 'a' 'w' 'b' else fcc 's' 'a' 'm' 'r', zeros, dref,
      (newAudio s, ⟨0, 0, 0, 0⟩), [.damr x]⟩)
  else .err .badParam

/-- `ISONewAMRWPSampleDescription`: ISOSampleDescriptions.c 785-833. -/
def newAmrWp (C : Class α) (t : Track) (dref vendor version : Nat) : Res Bytes :=
  if t.isAudio then do
    let s ← t.timeScale
    store (boxes C) (.audio ⟨fcc 's' 'a' 'w' 'p', zeros, dref, (newAudio s, ⟨0, 0, 0, 0⟩), [.dawp vendor version]⟩)
  else .err .badParam

end Verif.Sde
