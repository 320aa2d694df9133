import Verif.Core.Box
import Verif.Model.Strings
import Verif.Model.Tree

/-!
# Sample entries and the sample description box

MPEGSampleEntryAtom.c, HapticSampleEntryAtom.c, VolumetricVisualSampleEntryAtom.c, VisualSampleEntryAtom.c,
RestrictedVideoSampleEntry.c, EncVisualSampleEntryAtom.c, AudioSampleEntryAtom.c, EncAudioSampleEntryAtom.c,
GenericSampleEntryAtom.c, TextMetaSampleEntry.c, XMLMetaSampleEntry.c, BoxedMetadataSampleEntry.c,
SampleDescriptionAtom.c, and the table of ISOSampleDescriptions.c 49-67 (`ISMACrypt` is defined in MP4Movies.h 20).

The boxes in an entry are of any class: the model takes the functions of that class as a parameter. A `char` array
of the structures is a list of as many bytes. An allocation of no bytes is taken to succeed. A pointer has 64 bits,
as AudioSampleEntryAtom.c 104-115 takes any stream for a file stream and a `u64 current_offset` for a pointer.
-/

namespace Verif.Ent

open Verif.Str
open Verif.Tree (isFree)

/-- The functions of a class of boxes. -/
structure Class (α : Type) where
  parse : Hdr → P α
  size : α → Nat
  ser : α → W

variable {α φ σ : Type}

/-! ## Lists of boxes -/

/-- `ADD_ATOM_LIST_SIZE`: MP4Impl.h 446-465. -/
def listSize (C : Class α) (n : Nat) : List α → Nat
  | [] => n
  | c :: cs => listSize C w32(n + C.size c) cs

/-- `SERIALIZE_ATOM_LIST`: MP4Impl.h 543-568. -/
def serList (C : Class α) : List α → W
  | [] => W.skip
  | c :: cs => nested (C.size c) (C.ser c) ;; serList C cs

/-- The loop of `GETATOM_LIST`: MP4Impl.h 221-243. The first argument bounds the iterations, each of which
consumes bytes of the stream. -/
def listLoop (C : Class α) : Nat → Nat → List α → P (List α)
  | 0, _, _ => P.bad
  | n + 1, size, acc => fun s =>
    if s.read < size then
      if w32(size + 4294967296 - s.read) < 8 then .ok (acc, ⟨s.rest, size⟩)
      else match parseAtom C.parse s.rest with
        | .ok (c, h, r) => listLoop C n size (if isFree h.type then acc else acc ++ [c]) ⟨r, w32(s.read + h.size)⟩
        | .err e => .err e
        | .ub => .ub
    else .ok (acc, s)

/-- `GETATOM_LIST`. -/
def getList (C : Class α) (size : Nat) : P (List α) := fun s => listLoop C (s.rest.length + 1) size [] s

/-- The loop of EncAudioSampleEntryAtom.c 131-144, EncVisualSampleEntryAtom.c 141-154 and
BoxedMetadataSampleEntry.c 95-108; `add` is `addAtom`. -/
def addLoop (C : Class α) (add : σ → Nat → α → Res σ) : Nat → Nat → σ → P σ
  | 0, _, _ => P.bad
  | n + 1, size, acc => fun s =>
    if s.read < size then
      match parseAtom C.parse s.rest with
      | .ok (c, h, r) =>
        if isFree h.type then addLoop C add n size acc ⟨r, w32(s.read + h.size)⟩
        else match add acc h.type c with
          | .ok acc' => addLoop C add n size acc' ⟨r, w32(s.read + h.size)⟩
          | .err e => .err e
          | .ub => .ub
      | .err e => .err e
      | .ub => .ub
    else .ok (acc, s)

/-- The same from the beginning. -/
def addList (C : Class α) (add : σ → Nat → α → Res σ) (init : σ) (size : Nat) : P σ := fun s =>
  addLoop C add (s.rest.length + 1) size init s

/-- The same, and `if(self->bytesRead != self->size)` after it. -/
def addAll (C : Class α) (add : σ → Nat → α → Res σ) (init : σ) (size : Nat) : P σ := do
  let v ← addList C add init size
  let r ← P.bytesRead
  if r ≠ size then P.fail .badData else pure v

/-! ## Entries -/

/-- `COMMON_SAMPLE_ENTRY_FIELDS` (MP4Atoms.h 828-831), the type of the box, and the fields of a class. -/
structure Entry (φ α : Type) where
  type : Nat
  reserved : Bytes
  dref : Nat
  fields : φ
  ext : List α
  deriving DecidableEq, Repr

/-- What the `serialize` functions have in common: the header (whose assertion needs a type), `PUTBYTES(reserved, 6)`,
`PUT16(dataReferenceIndex)`, the fields of the class, `SERIALIZE_ATOM_LIST` and the assertion. -/
def Entry.serialize (C : Class α) (size : Nat) (put : φ → W) (x : Entry φ α) : W :=
  if x.type = 0 then W.bad else
  serBase size x.type ;; putBytes x.reserved ;; put16 x.dref ;; put x.fields ;; serList C x.ext ;; W.assertFull

/-- What the `createFromInputStream` functions with `GETATOM_LIST` have in common. -/
def Entry.parse (C : Class α) (get : P φ) (h : Hdr) : P (Entry φ α) := do
  let reserved ← getBytes 6
  let dref ← get16
  let f ← get
  let ext ← getList C h.size
  pure ⟨h.type, reserved, dref, f, ext⟩

/-- MPEGSampleEntryAtom.c 46-98, HapticSampleEntryAtom.c 40-90. -/
def plain (C : Class α) : Class (Entry Unit α) where
  size x := listSize C (8 + 8) x.ext
  ser x := x.serialize C (listSize C (8 + 8) x.ext) fun _ => W.skip
  parse := Entry.parse C (pure ())

structure Named where
  nameLength : Nat
  name31 : Bytes
  deriving DecidableEq, Repr

/-- VolumetricVisualSampleEntryAtom.c 40-94. -/
def volumetric (C : Class α) : Class (Entry Named α) where
  size x := listSize C (8 + (6 + 2 + 32)) x.ext
  ser x := x.serialize C (listSize C (8 + (6 + 2 + 32)) x.ext) fun f => put8 f.nameLength ;; putBytes f.name31
  parse := Entry.parse C do
    let nameLength ← get8
    let name31 ← getBytes 31
    pure ⟨nameLength, name31⟩

/-! ### Video -/

structure Video where
  reserved2 : Bytes
  width : Nat
  height : Nat
  reserved4 : Nat
  reserved5 : Nat
  reserved6 : Nat
  reserved7 : Nat
  nameLength : Nat
  name31 : Bytes
  reserved8 : Nat
  reserved9 : Nat
  deriving DecidableEq, Repr

/-- VisualSampleEntryAtom.c 48-60, RestrictedVideoSampleEntry.c 66-78, EncVisualSampleEntryAtom.c 63-75. -/
def Video.put (f : Video) : W :=
  putBytes f.reserved2 ;; put16 f.width ;; put16 f.height ;; put32 f.reserved4 ;; put32 f.reserved5 ;;
    put32 f.reserved6 ;; put16 f.reserved7 ;; put8 f.nameLength ;; putBytes f.name31 ;; put16 f.reserved8 ;;
    put16 f.reserved9

/-- VisualSampleEntryAtom.c 97-109, RestrictedVideoSampleEntry.c 132-144, EncVisualSampleEntryAtom.c 130-142. -/
def Video.get : P Video := do
  let reserved2 ← getBytes 16
  let width ← get16
  let height ← get16
  let reserved4 ← get32
  let reserved5 ← get32
  let reserved6 ← get32
  let reserved7 ← get16
  let nameLength ← get8
  let name31 ← getBytes 31
  let reserved8 ← get16
  let reserved9 ← get16
  pure ⟨reserved2, width, height, reserved4, reserved5, reserved6, reserved7, nameLength, name31, reserved8, reserved9⟩

/-- `MP4CalculateBaseAtomFieldSize` and `6 + 16 + 31 + (4 * 2) + (1 * 1) + (4 * 4)`. -/
def videoSize : Nat := 8 + (6 + 16 + 31 + (4 * 2) + (1 * 1) + (4 * 4))

/-- VisualSampleEntryAtom.c 37-114. -/
def visual (C : Class α) : Class (Entry Video α) where
  size x := listSize C videoSize x.ext
  ser x := x.serialize C (listSize C videoSize x.ext) Video.put
  parse := Entry.parse C Video.get

/-- RestrictedVideoSampleEntry.c 54-152. -/
def restricted (C : Class α) : Class (Entry Video α) where
  size x := listSize C videoSize x.ext
  ser x := x.serialize C (listSize C videoSize x.ext) Video.put
  parse h := do
    let x ← Entry.parse C Video.get h
    let r ← P.bytesRead
    if r ≠ h.size then P.fail .badData else pure x

/-! ### Audio -/

structure Audio where
  reserved2 : Bytes
  reserved3 : Nat
  reserved4 : Nat
  reserved5 : Nat
  timeScale : Nat
  reserved6 : Nat
  deriving DecidableEq, Repr

/-- The fields of version 1 of a QuickTime sound description. -/
structure Qt where
  samplesPerPacket : Nat
  bytesPerPacket : Nat
  bytesPerFrame : Nat
  bytesPerSample : Nat
  deriving DecidableEq, Repr

/-- AudioSampleEntryAtom.c 48-54, EncAudioSampleEntryAtom.c 64-70. -/
def Audio.put (f : Audio) : W :=
  putBytes f.reserved2 ;; put16 f.reserved3 ;; put16 f.reserved4 ;; put32 f.reserved5 ;; put16 f.timeScale ;;
    put16 f.reserved6

/-- AudioSampleEntryAtom.c 90-96, EncAudioSampleEntryAtom.c 124-130. -/
def Audio.get : P Audio := do
  let reserved2 ← getBytes 8
  let reserved3 ← get16
  let reserved4 ← get16
  let reserved5 ← get32
  let timeScale ← get16
  let reserved6 ← get16
  pure ⟨reserved2, reserved3, reserved4, reserved5, timeScale, reserved6⟩

/-- `MP4CalculateBaseAtomFieldSize` and `14 + (1 * 4) + (5 * 2)`. -/
def audioSize : Nat := 8 + (14 + (1 * 4) + (5 * 2))

/-- AudioSampleEntryAtom.c 117-120. -/
def Qt.get : P Qt := do
  let a ← get32
  let b ← get32
  let c ← get32
  let d ← get32
  pure ⟨a, b, c, d⟩

/-- AudioSampleEntryAtom.c 99-133. When `MP4ParseAtom` fails, `atm` is NULL (MP4Atoms.c 787) and line 109
dereferences it. `v1` is `reserved2[1] == 1`. -/
def audioLoop (C : Class α) (v1 : Bool) : Nat → Nat → Qt → List α → P (Qt × List α)
  | 0, _, _, _ => P.bad
  | n + 1, size, qt, acc => fun s =>
    if s.read < size then
      match parseAtom C.parse s.rest with
      | .ok (c, h, r) =>
        if w32(s.read + h.size) > size && v1 then
          match Qt.get s with
          | .ok (qt', s') => audioLoop C v1 n size qt' acc s'
          | .err e => .err e
          | .ub => .ub
        else
          audioLoop C v1 n size qt (if isFree h.type then acc else acc ++ [c]) ⟨r, w32(s.read + h.size)⟩
      | .err _ => .ub
      | .ub => .ub
    else .ok ((qt, acc), s)

/-- The same from the beginning: the fields of QuickTime are zero at first (`calloc`, line 145). -/
def audioList (C : Class α) (v1 : Bool) (size : Nat) : P (Qt × List α) := fun s =>
  audioLoop C v1 (s.rest.length + 1) size ⟨0, 0, 0, 0⟩ [] s

/-- AudioSampleEntryAtom.c 38-138. The fields of QuickTime are not written. -/
def audio (C : Class α) : Class (Entry (Audio × Qt) α) where
  size x := listSize C audioSize x.ext
  ser x := x.serialize C (listSize C audioSize x.ext) fun f => f.1.put
  parse h := do
    let reserved ← getBytes 6
    let dref ← get16
    let f ← Audio.get
    let v ← audioList C (f.reserved2[1]? == some 1) h.size
    pure ⟨h.type, reserved, dref, (f, v.1), v.2⟩

/-! ### Protected entries -/

/-- `MP4SecurityInfoAtomType`: MP4Atoms.h 178. -/
def typeSinf : Nat := fcc 's' 'i' 'n' 'f'

/-- An entry with the field `SecurityInfo`. -/
structure EncEntry (φ α : Type) where
  type : Nat
  reserved : Bytes
  dref : Nat
  fields : φ
  ext : List α
  sinf : Option α
  deriving DecidableEq, Repr

/-- `addAtom`: EncAudioSampleEntryAtom.c 96-111, EncVisualSampleEntryAtom.c 101-116. -/
def encAdd (acc : List α × Option α) (type : Nat) (c : α) : Res (List α × Option α) :=
  if type = typeSinf then .ok (acc.1, some c) else .ok (acc.1 ++ [c], acc.2)

/-- `ADD_ATOM_SIZE(SecurityInfo); ADD_ATOM_LIST_SIZE(ExtensionAtomList)`: EncAudioSampleEntryAtom.c 79-94,
EncVisualSampleEntryAtom.c 84-99. -/
def EncEntry.calcSize (C : Class α) (n : Nat) (x : EncEntry φ α) : Nat :=
  listSize C (match x.sinf with | none => n | some s => w32(n + C.size s)) x.ext

/-- EncAudioSampleEntryAtom.c 53-77, EncVisualSampleEntryAtom.c 52-82. -/
def EncEntry.serialize (C : Class α) (n : Nat) (put : φ → W) (x : EncEntry φ α) : W :=
  if x.type = 0 then W.bad else
  serBase (x.calcSize C n) x.type ;; putBytes x.reserved ;; put16 x.dref ;; put x.fields ;; serList C x.ext ;;
    (match x.sinf with | none => W.skip | some s => nested (C.size s) (C.ser s)) ;; W.assertFull

/-- EncAudioSampleEntryAtom.c 113-150, EncVisualSampleEntryAtom.c 118-163. -/
def EncEntry.parse (C : Class α) (get : P φ) (h : Hdr) : P (EncEntry φ α) := do
  let reserved ← getBytes 6
  let dref ← get16
  let f ← get
  let v ← addAll C encAdd ([], none) h.size
  pure ⟨h.type, reserved, dref, f, v.1, v.2⟩

/-- EncVisualSampleEntryAtom.c. -/
def encVisual (C : Class α) : Class (EncEntry Video α) where
  size x := x.calcSize C videoSize
  ser x := x.serialize C videoSize Video.put
  parse := EncEntry.parse C Video.get

/-- EncAudioSampleEntryAtom.c. -/
def encAudio (C : Class α) : Class (EncEntry Audio α) where
  size x := x.calcSize C audioSize
  ser x := x.serialize C audioSize Audio.put
  parse := EncEntry.parse C Audio.get

/-! ### Other media -/

/-- `MP4MetadataKeyTableBoxType`: MP4Atoms.h 165. -/
def typeKeys : Nat := fcc 'k' 'e' 'y' 's'

/-- `addAtom`: BoxedMetadataSampleEntry.c 64-79; the second member tells whether `keyTable` is set. -/
def mebxAdd (acc : List α × Bool) (type : Nat) (c : α) : Res (List α × Bool) :=
  if type = typeKeys then (if acc.2 then .err .badParam else .ok (acc.1 ++ [c], true)) else .ok (acc.1 ++ [c], acc.2)

/-- BoxedMetadataSampleEntry.c 33-115; the field tells whether `keyTable` is set. -/
def mebx (C : Class α) : Class (Entry Bool α) where
  size x := listSize C (8 + (6 + 2)) x.ext
  ser x := x.serialize C (listSize C (8 + (6 + 2)) x.ext) fun _ => W.skip
  parse h := do
    let reserved ← getBytes 6
    let dref ← get16
    let v ← addAll C mebxAdd ([], false) h.size
    pure ⟨h.type, reserved, dref, v.2, v.1⟩

/-- GenericSampleEntryAtom.c 53-115; the field is `data`. -/
def generic (C : Class α) : Class (Entry Bytes α) where
  size x := listSize C w32(8 + w32(8 + x.fields.length)) x.ext
  ser x := x.serialize C (listSize C w32(8 + w32(8 + x.fields.length)) x.ext) putBytes
  parse h := do
    let reserved ← getBytes 6
    let dref ← get16
    let n ← bytesLeft h
    let data ← getBytes n
    let ext ← getList C h.size
    let r ← P.bytesRead
    if r ≠ h.size then P.fail .badData else pure ⟨h.type, reserved, dref, data, ext⟩

/-- TextMetaSampleEntry.c 122-150, XMLMetaSampleEntry.c 137-165: the bytes up to a NUL go to `char temp[1024]` with
no test of their number, nor of the end of the box. -/
def readString : P Bytes := fun s =>
  match splitNul s.rest with
  | some (a, r) => if a.length > 1024 then .ub else .ok (a, ⟨r, s.read + a.length⟩)
  | none => if s.rest.length > 1024 then .ub else .err .ioErr

/-- `if(self->size > self->bytesRead) readstring(…) else … = NULL`. -/
def readField (h : Hdr) : P (Option Bytes) := do
  let r ← P.bytesRead
  if h.size > r then
    let b ← readString
    pure (some b)
  else pure none

/-- `if(s) size += (u32)strlen(s)`. A buffer with no NUL is undefined behaviour, see `putField`. -/
def fieldSize (n : Nat) (s : Option Bytes) : Nat :=
  match s with
  | none => n
  | some b => w32(n + w32(((cstr b).getD []).length))

/-- `if(s) PUTBYTES(s, (u32)strlen(s) + 1) else PUT8_V(0)`. -/
def putField (s : Option Bytes) : W :=
  match s with
  | none => put8 0
  | some b => match cstr b with
    | none => W.bad
    | some s => putStr s

structure TextFields where
  contentEncoding : Option Bytes
  mimeFormat : Option Bytes
  deriving DecidableEq, Repr

/-- TextMetaSampleEntry.c 58-186. -/
def textMeta (C : Class α) : Class (Entry TextFields α) where
  size x := listSize C (fieldSize (fieldSize (8 + (8 + 2)) x.fields.contentEncoding) x.fields.mimeFormat) x.ext
  ser x := x.serialize C
    (listSize C (fieldSize (fieldSize (8 + (8 + 2)) x.fields.contentEncoding) x.fields.mimeFormat) x.ext)
    fun f => putField f.contentEncoding ;; putField f.mimeFormat
  parse h := Entry.parse C (do
    let a ← readField h
    let b ← readField h
    pure ⟨a, b⟩) h

structure XmlFields where
  contentEncoding : Option Bytes
  xmlNamespace : Option Bytes
  schemaLocation : Option Bytes
  deriving DecidableEq, Repr

/-- XMLMetaSampleEntry.c 63-208. Line 200 forgets the namespace, not the location, when the box ends before the
location. -/
def xmlMeta (C : Class α) : Class (Entry XmlFields α) where
  size x := listSize C (fieldSize (fieldSize (fieldSize (8 + (8 + 3)) x.fields.contentEncoding) x.fields.xmlNamespace)
    x.fields.schemaLocation) x.ext
  ser x := x.serialize C
    (listSize C (fieldSize (fieldSize (fieldSize (8 + (8 + 3)) x.fields.contentEncoding) x.fields.xmlNamespace)
      x.fields.schemaLocation) x.ext)
    fun f => putField f.contentEncoding ;; putField f.xmlNamespace ;; putField f.schemaLocation
  parse h := Entry.parse C (do
    let a ← readField h
    let b ← readField h
    let r ← P.bytesRead
    if h.size > r then
      let c ← readString
      pure ⟨a, b, some c⟩
    else pure ⟨a, none, none⟩) h

/-! ## Any entry -/

/-- An entry of one of the classes that the reader can make. -/
inductive Any (α : Type) where
  | plain (x : Entry Unit α)
  | visual (x : Entry Video α)
  | audio (x : Entry (Audio × Qt) α)
  | encVisual (x : EncEntry Video α)
  | encAudio (x : EncEntry Audio α)
  | restricted (x : Entry Video α)
  | xmlMeta (x : Entry XmlFields α)
  | textMeta (x : Entry TextFields α)
  | mebx (x : Entry Bool α)
  | generic (x : Entry Bytes α)

/-- `map` on the result of a parser. -/
def P.as {β γ : Type} (f : β → γ) (p : P β) : P γ := do
  let x ← p
  pure (f x)

/-- `MP4SampleEntryProtos` (ISOSampleDescriptions.c 49-67), the default class of SampleDescriptionAtom.c 145-146 and
the cases of `MP4CreateAtom` (MP4Atoms.c 256-320, 637). -/
def anyParse (C : Class α) (h : Hdr) : P (Any α) :=
  if h.type = fcc 'm' 'p' '4' 's' then P.as .plain ((plain C).parse h)
  else if h.type = fcc 'm' 'p' '4' 'v' ∨ h.type = fcc 's' '2' '6' '3' ∨ h.type = fcc 'a' 'v' 'c' '1' ∨
      h.type = fcc 'h' 'v' 'c' '1' ∨ h.type = fcc 'v' 'v' 'i' '1' ∨ h.type = fcc 'v' 'v' 'c' '1' ∨
      h.type = fcc 'v' 'v' 's' '1' then P.as .visual ((visual C).parse h)
  else if h.type = fcc 'm' 'p' '4' 'a' ∨ h.type = fcc 's' 'a' 'm' 'r' ∨ h.type = fcc 's' 'a' 'w' 'b' ∨
      h.type = fcc 's' 'a' 'w' 'p' then P.as .audio ((audio C).parse h)
  else if h.type = fcc 'e' 'n' 'c' 'a' then P.as .encAudio ((encAudio C).parse h)
  else if h.type = fcc 'e' 'n' 'c' 'v' then P.as .encVisual ((encVisual C).parse h)
  else if h.type = fcc 'm' 'e' 't' 'x' then P.as .xmlMeta ((xmlMeta C).parse h)
  else if h.type = fcc 'm' 'e' 't' 't' then P.as .textMeta ((textMeta C).parse h)
  else if h.type = fcc 'r' 'e' 's' 'v' then P.as .restricted ((restricted C).parse h)
  else if h.type = fcc 'm' 'e' 'b' 'x' then P.as .mebx ((mebx C).parse h)
  else P.as .generic ((generic C).parse h)

def anySize (C : Class α) : Any α → Nat
  | .plain x => (plain C).size x
  | .visual x => (visual C).size x
  | .audio x => (audio C).size x
  | .encVisual x => (encVisual C).size x
  | .encAudio x => (encAudio C).size x
  | .restricted x => (restricted C).size x
  | .xmlMeta x => (xmlMeta C).size x
  | .textMeta x => (textMeta C).size x
  | .mebx x => (mebx C).size x
  | .generic x => (generic C).size x

def anySer (C : Class α) : Any α → W
  | .plain x => (plain C).ser x
  | .visual x => (visual C).ser x
  | .audio x => (audio C).ser x
  | .encVisual x => (encVisual C).ser x
  | .encAudio x => (encAudio C).ser x
  | .restricted x => (restricted C).ser x
  | .xmlMeta x => (xmlMeta C).ser x
  | .textMeta x => (textMeta C).ser x
  | .mebx x => (mebx C).ser x
  | .generic x => (generic C).ser x

/-- The functions found in the entry itself (`desc->calculateSize`, `desc->serialize`) and the reader above. -/
def any (C : Class α) : Class (Any α) := ⟨anyParse C, anySize C, anySer C⟩

/-! ## The sample description box -/

structure Stsd (α : Type) where
  version : Nat
  flags : Nat
  entries : List α
  deriving DecidableEq, Repr

/-- SampleDescriptionAtom.c 64-158. -/
def stsd (C : Class α) : Class (Stsd α) where
  size x := listSize C (12 + 4) x.entries
  ser x := serFull (listSize C (12 + 4) x.entries) (fcc 's' 't' 's' 'd') x.version x.flags ;;
    put32 x.entries.length ;; serList C x.entries ;; W.assertFull
  parse h := do
    let vf ← getVersionFlags
    let n ← get32
    let es ← P.repeat n (getAtom C.parse)
    let r ← P.bytesRead
    if r ≠ h.size then P.fail .badData else pure ⟨vf.1, vf.2, es⟩

/-- SampleDescriptionAtom.c 108-122. -/
def Stsd.getEntry (x : Stsd α) (n : Nat) : Res α :=
  if n = 0 ∨ n > x.entries.length then .err .badParam
  else match x.entries[n - 1]? with
    | some e => .ok e
    | none => .err .badParam

end Verif.Ent
