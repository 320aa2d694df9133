import Verif.Model.SampleDesc
import Verif.Model.ByTime

/-!
# The sample descriptions of a media and the decoder configuration in them

MP4Media.c 719-1049 (`MP4GetMediaSampleDescription`, `MP4GetMediaESD`, `MP4GetMediaDecoderConfig`,
`MP4GetMediaDecoderInformation`) and 1464-1528 (`MP4GetMediaSampleDescIndex`), MediaInformationAtom.c 397-421 and 488-512
(how a description enters the media), SampleTableAtom.c 163-181, 221-236.

The media, its information, its sample table and the sample description box exist. A handle that is not NULL is the list of
its bytes; `MP4SetHandleSize` succeeds. A member written by a reader is what the reader made of it: `upstream` is 0 or 2
(MP4DecoderConfigDescriptor.c 79).
-/

namespace Verif.Mds

open Verif.Ent Verif.Descr Verif.Sde

variable {α : Type}

/-- `dataReferenceIndex`, at the same place in all structures (MP4Atoms.h 828-831). -/
def anyDref {β : Type} : Any β → Nat
  | .plain x => x.dref
  | .visual x => x.dref
  | .audio x => x.dref
  | .encVisual x => x.dref
  | .encAudio x => x.dref
  | .restricted x => x.dref
  | .xmlMeta x => x.dref
  | .textMeta x => x.dref
  | .mebx x => x.dref
  | .generic x => x.dref

/-- The sample description box and `currentSampleEntryIndex`, which is 0 as long as `currentSampleEntry` is NULL. -/
structure Table (α : Type) where
  stsd : Stsd (Any (Bx α))
  current : Nat

/-- The box of a new media. -/
def Table.new : Table α := ⟨⟨0, 0, []⟩, 0⟩

/-- MediaInformationAtom.c 397-421 (and 488-512) with `setSampleEntry` (SampleTableAtom.c 163-181): the description in a
handle that is given with samples becomes the last entry. -/
def Table.enter (C : Class α) (t : Table α) (h : Bytes) : Res (Table α) := do
  let x ← openEntry (boxes C) .generic h
  let l := t.stsd.entries ++ [x]
  .ok ⟨{ t.stsd with entries := l }, l.length⟩

/-- `getCurrentDataReferenceIndex`: SampleTableAtom.c 221-236. -/
def Table.dataRef (t : Table α) : Res Nat :=
  if t.current = 0 then .err .invalidMedia
  else match t.stsd.entries[t.current - 1]? with
    | some x => .ok (anyDref x)
    | none => .ub

/-- Lines 728-758, the same in the other functions. -/
def Table.entry (t : Table α) (index : Nat) : Res (Any (Bx α)) :=
  if index = 0 then .err .badParam
  else if index > t.stsd.entries.length then .err .badParam
  else t.stsd.getEntry index

/-- `MP4GetMediaSampleDescription`: MP4Media.c 719-775; the handle may be NULL. -/
def description (C : Class α) (t : Table α) (index : Nat) (h : Option Bytes) : Res (Option Bytes × Nat) := do
  let x ← t.entry index
  match h with
  | none => .ok (none, anyDref x)
  | some _ => do
    let b ← store (boxes C) x
    .ok (some b, anyDref x)

/-- The descriptor in the box found by `MP4GetListEntryAtom(…, MP4ESDAtomType, …)`: lines 816-825. An error of another
kind would be kept, with `ESD` not set. -/
def findEsd (l : List (Bx α)) : Res (Option Es) :=
  match findAt typeEsds l with
  | .ok i =>
    match l[i]? with
    | some (.esds _ _ d) => .ok d
    | _ => .ub
  | .err .notFound => .err .invalidMedia
  | .err _ => .ub
  | .ub => .ub

/-- `MP4GetMediaESD`: MP4Media.c 777-835. -/
def esd (t : Table α) (index : Nat) : Res (Option Es × Nat) := do
  let x ← t.entry index
  let d ← findEsd (anyExt x)
  .ok (d, anyDref x)

/-- The elementary stream descriptor, which may not be NULL: MP4Media.c 881-892, 971-982. -/
def needEs (t : Table α) (index : Nat) : Res Es := do
  let x ← t.entry index
  let d ← findEsd (anyExt x)
  match d with
  | some e => .ok e
  | none => .err .invalidMedia

/-- `MP4GetMediaDecoderConfig`: MP4Media.c 837-909: what is in the handle. -/
def decoderConfig (t : Table α) (index : Nat) : Res Bytes := do
  let e ← needEs t index
  match e.decoder with
  | some d => if decSize d = 0 then .ok [] else runW (decSize d) (putDec d)
  | none => .ok []

/-- The loop of MP4Media.c 1012-1020: `cp` points at the head of the list, `skipped` bytes are before it. -/
def skipLength (size : Nat) : Bytes → Nat → Res Nat
  | [], _ => .ub
  | b :: r, skipped =>
    if b.toNat &&& 0x80 ≠ 0 then
      if skipped + 1 = size then .err .invalidMedia else skipLength size r (skipped + 1)
    else .ok (skipped + 1)

/-- The payload of the decoder specific information: MP4Media.c 1000-1026. -/
def infoBytes (i : Default) : Res Bytes :=
  if defaultSize i = 0 then .ok []
  else do
    let b ← runW (defaultSize i) (putDefault i)
    let n ← skipLength (defaultSize i) (b.drop 1) 1
    .ok ((b.drop n).take (defaultSize i - n))

/-- What the pointers of `MP4GetMediaDecoderInformation` lead to. -/
structure Out where
  objectType : Nat
  streamType : Nat
  buffer : Nat
  upstream : Nat
  max : Nat
  avg : Nat
  deriving DecidableEq, Repr

/-- `MP4GetMediaDecoderInformation`: MP4Media.c 922-1049, with all pointers given and the handle `h`, which may be NULL: the
values that were written, if any were, and what is in the handle. -/
def decoderInformation (t : Table α) (index : Nat) (h : Option Bytes) : Res (Option Out × Option Bytes) := do
  let e ← needEs t index
  match e.decoder with
  | none => .ok (none, h.map fun _ => [])
  | some d =>
    let out : Out := ⟨d.objectType, d.streamType, d.bufferSize, if d.upstream then 2 else 0, d.maxBitrate, d.avgBitrate⟩
    match h, d.info with
    | none, _ => .ok (some out, none)
    | some old, none => .ok (some out, some old)
    | some _, some i => do
      let b ← infoBytes i
      .ok (some out, some b)

/-- `MP4GetMediaSampleDescIndex`: MP4Media.c 1464-1528. -/
def descIndex (t : Reader.Track) (time : Nat) : Res (Nat × Reader.Track) :=
  (Stts.findSamples t.media.stts.entries time).bind fun f =>
  (Stsc.lookup t.media.stsc f.num).bind fun r =>
  .ok (r.1.desc, { t with media := { t.media with stsc := r.2 } })

end Verif.Mds
