import Verif.Model.Handle
import Verif.Model.Mdat
import Verif.Model.Strings
import Verif.Model.Iloc

/-!
# Data handlers: bytes of samples and items in the movie's file and in other files

MP4DataHandler.c, FileMappingDataHandler.c, linux/SimpleFileMappingObject.c, MemoryFileMappingObject.c, and the data handlers that a media information box
(MediaInformationAtom.c 99-232) and a meta box (MetaAtom.c 59-135) keep between two reads.

The file system is a function from names to contents, and does not change. Allocations succeed. Modelled is the Linux version, with a 64-bit `off_t` and
`size_t`; `read` returns at most 0x7ffff000 bytes. Memory that is never released, and the descriptors of files, are left out. The macosx and w32 versions
of the mapping object are not modelled.
-/

namespace Verif.Handler

open Hdl (Cell Handle)
open Str (cstr)

/-- Contents of the files, by name. -/
abbrev Fs := Bytes → Option Bytes

/-- `FileMappingObjectRecord`: FileMappingObject.h 31-45. `data` is `none` for NULL. -/
structure Mapping where
  data : Option Bytes
  size64 : Nat
  parent : Option Bytes
  deriving DecidableEq, Repr

/-- What the handlers use of an `MP4DataEntryAtom`: MP4Atoms.h 640-654. `location` is the whole allocated block. -/
structure Ref where
  flags : Nat
  location : Option Bytes
  mdat : Option Mdat.T
  deriving DecidableEq, Repr

/-- The entry, of either class; both structures start with the same fields: MP4Atoms.h 650-668. -/
def Ref.of (mdat : Option Mdat.T) : Str.Entry → Ref
  | .url _ flags x => ⟨flags, x.location, mdat⟩
  | .urn _ flags x => ⟨flags, x.location, mdat⟩

/-! ## Names -/

/-- `(strncmp(s, "file://", 7) == 0) || (strncmp(s, "file|//", 7) == 0)`. -/
def isUrl (s : Bytes) : Bool :=
  s.take 7 == [102, 105, 108, 101, 58, 47, 47] || s.take 7 == [102, 105, 108, 101, 124, 47, 47]

/-- `strlen` of memory: a NUL has to come before the end and before bytes that were never set. -/
def len : List Cell → Res Nat
  | [] => .ub
  | none :: _ => .ub
  | some b :: r => if b = 0 then .ok 0 else (len r).bind fun n => .ok (n + 1)

/-- The string that is in memory. -/
def text : List Cell → Res Bytes
  | [] => .ub
  | none :: _ => .ub
  | some b :: r => if b = 0 then .ok [] else (text r).bind fun s => .ok (b :: s)

/-- `strcpy` of a string into the handle, at a place. -/
def putAt (h : Handle) (pos : Nat) (s : Bytes) : Res Handle :=
  (Hdl.blit h.block (h.offset + pos) (s.map some ++ [some 0])).bind fun b => .ok { h with block := b }

def strcpy (h : Handle) (s : Bytes) : Res Handle := putAt h 0 s

def strcat (h : Handle) (s : Bytes) : Res Handle :=
  (len (h.block.drop h.offset)).bind fun n => putAt h n s

/-- `createCanonicalPathName`: FileMappingDataHandler.c 36-82. A string without a NUL is `.ub` here at once; each branch has a `strlen` of it. -/
def canonical (parent : Option Bytes) (r : Ref) (h : Handle) : Res Handle :=
  if r.flags = 1 then .err .badParam
  else match r.location with
  | none => .ub
  | some b => match cstr b with
    | none => .ub
    | some name =>
      if isUrl name then
        (Hdl.setSize h w32(name.length - 6) true).bind fun h => strcpy h (name.drop 7)
      else match parent with
        | some p =>
          (Hdl.setSize h w32(p.length + name.length + 1) true).bind fun h =>
          (strcpy h p).bind fun h => strcat h name
        | none =>
          (Hdl.setSize h w32(name.length + 1) true).bind fun h => strcat h name

/-- `MP4NewHandle(1024, ..)` and `createCanonicalPathName`: FileMappingDataHandler.c 101-104, 218-221; the string that is in the handle. -/
def pathName (parent : Option Bytes) (r : Ref) : Res Bytes :=
  (Hdl.newHandle 1024 true).bind fun h => (canonical parent r h).bind fun h => text (h.block.drop h.offset)

/-! ## Mapping objects -/

/-- The characters before the last `c`: `strrchr`. -/
def before (c : UInt8) : Bytes → Option Bytes
  | [] => none
  | b :: r => match before c r with
    | some p => some (b :: p)
    | none => if b = c then some [] else none

/-- The parent of a path: linux/SimpleFileMappingObject.c 77-85. A backslash is looked for first. -/
def parentOf (path : Bytes) : Option Bytes :=
  match before 92 path with
  | some d => some (d ++ [47])
  | none => match before 47 path with
    | some d => some (d ++ [47])
    | none => none

/-- `doOpen`: linux/SimpleFileMappingObject.c 53-90. `size` is a `u32`. The error for a missing file is MP4FileNotFoundErr, which stands as `notFound`. -/
def openPath (fs : Fs) (path : Bytes) : Res Mapping :=
  match fs path with
  | none => .err .notFound
  | some f =>
    if w32(f.length) > 2147479552 then .err .ioErr
    else .ok ⟨some (f.take w32(f.length)), f.length, parentOf path⟩

/-- `MP4CreateFileMappingObject`: linux/SimpleFileMappingObject.c 144-152. -/
def openUrl (fs : Fs) (url : Bytes) : Res Mapping := openPath fs (if isUrl url then url.drop 7 else url)

/-- `MP4AssertFileExists`: linux/SimpleFileMappingObject.c 154-166. -/
def exists_ (fs : Fs) (path : Bytes) : Res Unit := if (fs path).isSome then .ok () else .err .notFound

/-- `MP4CreateMemoryFileMappingObject`: MemoryFileMappingObject.c 70-93; used for movies in memory. -/
def memory (bs : Bytes) : Mapping := ⟨some bs, w32(bs.length), none⟩

/-! ## Data handlers -/

/-- Where a file mapping data handler reads: nowhere (`mappingObject == NULL`), in a mapping object of its own, or in that of the stream of the movie. -/
inductive Source where
  | nothing
  | own (m : Mapping)
  | stream
  deriving DecidableEq, Repr

/-- A data handler: MdatDataHandler.c, FileMappingDataHandler.c. -/
inductive Hand where
  | mdat (m : Option Mdat.T)
  | map (s : Source)
  deriving DecidableEq, Repr

/-- `doOpen`: FileMappingDataHandler.c 84-119. -/
def openRef (fs : Fs) (stream : Option Mapping) (r : Ref) : Res Source :=
  if r.flags = 1 then
    match stream with
    | none => .err .badParam
    | some _ => .ok .stream
  else
    (pathName (stream.bind (·.parent)) r).bind fun path =>
    (openUrl fs path).bind fun m => .ok (.own m)

/-- `MP4CreateDataHandler`: MP4DataHandler.c 32-39, FileMappingDataHandler.c 170-192: the handler, which is there even if opening failed. -/
def create (fs : Fs) (stream : Option Mapping) (r : Ref) : Hand × Res Unit :=
  if r.flags = 1 ∧ r.mdat.isSome then (.mdat r.mdat, .ok ())
  else match openRef fs stream r with
    | .ok s => (.map s, .ok ())
    | .err e => (.map .nothing, .err e)
    | .ub => (.map .nothing, .ub)

/-- `doClose` of the two kinds: MdatDataHandler.c 41-45, FileMappingDataHandler.c 121-128, linux/SimpleFileMappingObject.c 92-106. What the stream of the
movie has afterwards. -/
def Hand.close (stream : Option Mapping) : Hand → Res (Option Mapping)
  | .mdat _ => .ok stream
  | .map .nothing => .ub
  | .map (.own _) => .ok stream
  | .map .stream => .ok (stream.map fun m => { m with data := none, parent := none })

/-- `MP4DisposeDataHandler`: MP4DataHandler.c 41-46, FileMappingDataHandler.c 194-211. -/
def dispose (stream : Option Mapping) (h : Hand) (r : Ref) : Res (Option Mapping) :=
  if r.flags = 1 ∧ r.mdat.isSome then h.close stream
  else if r.flags = 1 then .ok stream
  else h.close stream

/-- `memcpy` out of a mapping: FileMappingDataHandler.c 146-153. On Linux `copyData` of the mapping object is NULL. -/
def Mapping.copy (m : Mapping) (offset n : Nat) : Res (List Cell) :=
  if offset >>> 32 ≠ 0 then .err .notImplemented
  else match m.data with
    | none => .ub
    | some d => if offset + n ≤ d.length then .ok (((d.drop offset).take n).map some) else .ub

/-- `copyData` of a handler: MdatDataHandler.c 47-72, FileMappingDataHandler.c 130-160; without a mapping object nothing is copied. -/
def Hand.copy (stream : Option Mapping) (h : Hand) (offset n : Nat) : Res (List Cell) :=
  match h with
  | .mdat none => .err .badParam
  | .mdat (some m) => (Mdat.copyData m offset n).bind fun d => .ok (d.map some)
  | .map .nothing => .ok (List.replicate n none)
  | .map (.own m) => m.copy offset n
  | .map .stream => match stream with
    | none => .ub
    | some m => m.copy offset n

/-- `getDataSize` of a handler: MdatDataHandler.c 74-81, FileMappingDataHandler.c 162-168. -/
def Hand.size (stream : Option Mapping) : Hand → Res Nat
  | .mdat none => .err .badParam
  | .mdat (some m) => .ok m.dataSize
  | .map .nothing => .ub
  | .map (.own m) => .ok m.size64
  | .map .stream => match stream with
    | none => .ub
    | some m => .ok m.size64

/-- `MP4PreflightDataHandler`: MP4DataHandler.c 48-52, FileMappingDataHandler.c 213-231. -/
def preflight (fs : Fs) (stream : Option Mapping) (r : Ref) : Res Unit :=
  if r.flags = 1 then .ok () else (pathName (stream.bind (·.parent)) r).bind (exists_ fs)

/-! ## The handler of a track -/

/-- What an `MP4MediaInformationAtom` has for reading: the stream of the movie, the data references (none if there is no data information or data
reference box), the handler and the index of its entry. -/
structure Track where
  stream : Option Mapping
  refs : Option (List Ref)
  hand : Option Hand
  index : Nat
  deriving DecidableEq, Repr

/-- `closeDataHandler`: MediaInformationAtom.c 132-181. -/
def Track.close (s : Track) : Track × Res Unit :=
  match s.refs with
  | none => (s, .err .invalidMedia)
  | some refs => match s.hand with
    | none => (s, .ok ())
    | some h =>
      if s.index = 0 then (s, .err .invalidMedia)
      else match refs[s.index - 1]? with
        | none => (s, .err .badParam)
        | some r => match dispose s.stream h r with
          | .ok st => ({ s with stream := st, hand := none, index := 0 }, .ok ())
          | .err e => (s, .err e)
          | .ub => (s, .ub)

/-- The second half of `openDataHandler`: MediaInformationAtom.c 214-226. -/
def Track.reopen (fs : Fs) (s : Track) (i : Nat) : Track × Res Unit :=
  match s.refs with
  | none => (s, .err .invalidMedia)
  | some refs => match refs[i - 1]? with
    | none => (s, .err .badParam)
    | some r => match create fs s.stream r with
      | (h, .ok _) => ({ s with hand := some h, index := i }, .ok ())
      | (h, e) => ({ s with hand := some h }, e)

/-- `openDataHandler`: MediaInformationAtom.c 183-232. -/
def Track.open (fs : Fs) (s : Track) (i : Nat) : Track × Res Unit :=
  if i = 0 then (s, .err .badParam)
  else if s.hand.isSome ∧ s.index = i then (s, .ok ())
  else if s.hand.isSome then
    match s.close with
    | (s, .ok _) => s.reopen fs i
    | (s, e) => (s, e)
  else s.reopen fs i

/-- Getting `n` bytes at `offset` from the data of entry `i`: MP4Media.c 1842-1856 (and 1675-1686, 2453-2470). -/
def Track.read (fs : Fs) (s : Track) (i offset n : Nat) : Track × Res (List Cell) :=
  match s.open fs i with
  | (s, .ok _) => match s.hand with
    | none => (s, .err .invalidMedia)
    | some h => if n > 0 then (s, h.copy s.stream offset n) else (s, .ok [])
  | (s, .err e) => (s, .err e)
  | (s, .ub) => (s, .ub)

/-- `testDataEntry`: MediaInformationAtom.c 99-129. -/
def Track.test (fs : Fs) (s : Track) (i : Nat) : Res Unit :=
  if i = 0 then .err .badParam
  else if s.hand.isSome ∧ s.index = i then .ok ()
  else match s.refs with
    | none => .err .invalidMedia
    | some refs => match refs[i - 1]? with
      | none => .err .badParam
      | some r => preflight fs s.stream r

/-- Calls on a track. -/
inductive Op where
  | read (i offset n : Nat)
  | close
  | test (i : Nat)
  deriving DecidableEq, Repr

def discard : Res Unit → Res (List Cell)
  | .ok _ => .ok []
  | .err e => .err e
  | .ub => .ub

def Track.step (fs : Fs) (s : Track) : Op → Track × Res (List Cell)
  | .read i offset n => s.read fs i offset n
  | .close => (s.close.1, discard s.close.2)
  | .test i => (s, discard (s.test fs i))

/-- The answers to calls one after the other. (After `.ub` they mean nothing.) -/
def Track.run (fs : Fs) : Track → List Op → List (Res (List Cell))
  | _, [] => []
  | s, op :: ops => (s.step fs op).2 :: Track.run fs (s.step fs op).1 ops

/-! ## The handler of a meta box -/

/-- What an `ISOMetaAtom` has for reading; the index is `none` for -1. -/
structure Box where
  stream : Option Mapping
  refs : Option (List Ref)
  mdat : Option Mdat.T
  hand : Option Hand
  index : Option Nat
  deriving DecidableEq, Repr

/-- `closeDataHandler`: MetaAtom.c 59-96. -/
def Box.close (s : Box) : Box × Res Unit :=
  match s.hand with
  | none => (s, .ok ())
  | some h => match s.index with
    | none => ({ s with hand := none, index := none }, .ok ())
    | some i =>
      if i = 0 then
        match h.close s.stream with
        | .ok st => ({ s with stream := st, hand := none, index := none }, .ok ())
        | .err e => (s, .err e)
        | .ub => (s, .ub)
      else match s.refs with
        | none => (s, .err .invalidMedia)
        | some refs => match refs[i - 1]? with
          | none => (s, .err .badParam)
          | some r => match dispose s.stream h r with
            | .ok st => ({ s with stream := st, hand := none, index := none }, .ok ())
            | .err e => (s, .err e)
            | .ub => (s, .ub)

/-- `openDataHandler`: MetaAtom.c 98-135. -/
def Box.open (fs : Fs) (s : Box) (i : Nat) : Box × Res Unit :=
  if i = 0 then ({ s with hand := some (.mdat s.mdat), index := some 0 }, .ok ())
  else match s.refs with
    | none => (s, .err .invalidMedia)
    | some refs => match refs[i - 1]? with
      | none => (s, .err .badParam)
      | some r => match create fs s.stream r with
        | (h, .ok _) => ({ s with hand := some h, index := some i }, .ok ())
        | (h, e) => ({ s with hand := some h }, e)

/-- Going to the entry `i`: ISOMeta.c 1566-1577. -/
def Box.switch (fs : Fs) (s : Box) (i : Nat) : Box × Res Unit :=
  if s.index = some i then (s, .ok ())
  else if s.hand.isSome then
    match s.close with
    | (s, .ok _) => s.open fs i
    | (s, e) => (s, e)
  else s.open fs i

/-- The handler for the items of entry `i`: ISOMeta.c 1564-1584. -/
def Box.use (fs : Fs) (s : Box) (i : Nat) : Box × Res Hand :=
  match s.switch fs i with
  | (s, .ok _) => match s.hand with
    | none => (s, .err .invalidMedia)
    | some h => (s, .ok h)
  | (s, .err e) => (s, .err e)
  | (s, .ub) => (s, .ub)

/-- The extents of an item: ISOMeta.c 1598-1688, with construction method 0. `acc` is what is in the handle, whose size is a `u32`; with `first`, the
offset of the extent is taken off the base. -/
def extents (stream : Option Mapping) (h : Hand) : Bool → Nat → List Cell → List Iloc.Extent → Res (List Cell)
  | _, _, acc, [] => .ok acc
  | first, base, acc, e :: es =>
    (if e.length = 0 then (h.size stream).bind fun n =>
        if n >>> 32 ≠ 0 then .err .notImplemented else if e.offset ≠ 0 then .err .badData else .ok n
      else if e.length >>> 32 ≠ 0 then .err .notImplemented else .ok e.length : Res Nat).bind fun n =>
    if acc.length + n ≥ 4294967296 then .ub else
    (h.copy stream w64(e.offset + base) n).bind fun bs =>
    extents stream h false (if first then w64(base + (18446744073709551616 - e.offset)) else base) (acc ++ bs) es

/-- `ISOGetItemData`: ISOMeta.c 1548-1695, for an item with construction method 0. -/
def Box.item (fs : Fs) (s : Box) (a : Iloc.Item) : Box × Res (List Cell) :=
  match s.use fs a.dref with
  | (s, .ok h) => (s, extents s.stream h true a.base [] (a.extents.getD []))
  | (s, .err e) => (s, .err e)
  | (s, .ub) => (s, .ub)

/-- The data of items one after the other. -/
def Box.run (fs : Fs) : Box → List Iloc.Item → List (Res (List Cell))
  | _, [] => []
  | s, a :: l => (s.item fs a).2 :: Box.run fs (s.item fs a).1 l

end Verif.Handler
