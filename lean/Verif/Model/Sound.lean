import Verif.Model.Entries
import Verif.Model.Rows

/-!
# Channel layout, downmix instructions and loudness

ChannelLayoutAtom.c, DownMixInstructionsAtom.c, LoudnessBaseAtom.c, LoudnessAtom.c.

Numbers that are signed in the code and not interpreted by it (azimuth, elevation) are kept as the bits. A failed
assertion is undefined behaviour. `GET8_V` and `GET16_V` store four bytes, whatever the field is (on a
little-endian machine the first of them is the value). In the structures of a
box this changes only fields that are read later. In the small blocks for a position and for a measurement the last store
ends after the block; the parameter `room` says whether the allocator gave more bytes than it was asked for, so that
this does no harm. Without room it is undefined.
-/

namespace Verif.Snd

open Verif.Rows (VF assertRead)
open Verif.Ent (Class listSize serList addList P.as)

def typeChnl : Nat := 0x63686e6c
def typeDmix : Nat := 0x646d6978
def typeTlou : Nat := 0x746c6f75
def typeAlou : Nat := 0x616c6f75
def typeLudt : Nat := 0x6c756474

/-- `while(self->bytesRead < self->size)` around `p`; `n` bounds the number of rounds. -/
def whileLoop {α σ : Type} (p : P α) (add : σ → α → σ) : Nat → Nat → σ → P σ
  | 0, _, _ => P.bad
  | n + 1, size, acc => fun s =>
    if s.read < size then
      match p s with
      | .ok (x, s) => whileLoop p add n size (add acc x) s
      | .err e => .err e
      | .ub => .ub
    else .ok (acc, s)

/-- Each round reads a byte at least. -/
def whileBytes {α σ : Type} (p : P α) (add : σ → α → σ) (init : σ) (size : Nat) : P σ := fun s =>
  whileLoop p add (s.rest.length + 1) size init s

/-! ## Channel layout -/

/-- `MP4ChannelLayoutDefinedLayout`: MP4Atoms.h 955-960. Six bytes, the last field is in the fifth. -/
structure Speaker where
  position : Nat
  azimuth : Nat
  elevation : Nat
  deriving DecidableEq, Repr

/-- `SPEAKER_POSITION_EXPLICIT`: ChannelLayoutAtom.c 31. -/
def explicit : Nat := 126

/-- ChannelLayoutAtom.c 80-85, 113-118. -/
def Speaker.put (x : Speaker) : W :=
  put8 x.position ;; if x.position = explicit then put16 x.azimuth ;; put8 x.elevation else W.skip

/-- ChannelLayoutAtom.c 161-165, 190-194. -/
def Speaker.size (x : Speaker) : Nat := if x.position = explicit then 4 else 1

/-- ChannelLayoutAtom.c 235-247, 276-288. -/
def Speaker.get (room : Bool) : P Speaker := do
  let position ← get8
  if position = explicit then
    let azimuth ← get16
    let elevation ← get8
    if room then pure ⟨position, azimuth, elevation⟩ else P.bad
  else pure ⟨position, 0, 0⟩

/-- `MP4ChannelLayoutAtom`: MP4Atoms.h 962-978. -/
structure Chnl where
  channelCount : Nat
  structure_ : Nat
  definedLayout : Nat
  layouts : List Speaker
  omitted : Nat
  objectCount : Nat
  ordering : Nat
  baseChannelCount : Nat
  layoutChannelCount : Nat
  orderDefinition : Nat
  omittedPresent : Nat
  deriving DecidableEq, Repr

/-- `stream_structure & STREAM_STRUCTURE_CHANNELS`. -/
def Chnl.channels (x : Chnl) : Prop := x.structure_ % 2 = 1
/-- `stream_structure & STREAM_STRUCTURE_OBJECTS`. -/
def Chnl.objects (x : Chnl) : Prop := x.structure_ / 2 % 2 = 1

instance (x : Chnl) : Decidable x.channels := inferInstanceAs (Decidable (_ = _))
instance (x : Chnl) : Decidable x.objects := inferInstanceAs (Decidable (_ = _))

/-- The first `n` entries; the result of `MP4GetListEntry` is not tested, so that too few entries are a pointer with no
value: ChannelLayoutAtom.c 158-166, 187-195. -/
def entries (l : List Speaker) (n : Nat) : Res (List Speaker) := if n ≤ l.length then .ok (l.take n) else .ub

/-- `calculateSize`: ChannelLayoutAtom.c 139-212. -/
def Chnl.size (version : Nat) (x : Chnl) : Res Nat := do
  if version = 0 then
    let n ← (if x.channels then
        if x.definedLayout = 0 then do
          let l ← entries x.layouts x.channelCount
          .ok (14 + (l.map Speaker.size).sum)
        else .ok (14 + 8)
      else .ok 13)
    .ok w32(if x.objects then n + 1 else n)
  else if x.channels then
    if x.definedLayout = 0 then
      let l ← entries x.layouts x.layoutChannelCount
      .ok w32(16 + (l.map Speaker.size).sum)
    else .ok (if x.omittedPresent ≠ 0 then 24 else 16)
  else .ok 14

/-- `serialize`: ChannelLayoutAtom.c 55-137. -/
def Chnl.serialize (version flags : Nat) (x : Chnl) : W :=
  match x.size version with
  | .err e => W.fail e
  | .ub => W.bad
  | .ok size =>
    serFull size typeChnl version flags ;;
    (if version = 0 then
      put8 x.structure_ ;;
      (if x.channels then
        put8 x.definedLayout ;;
        if x.definedLayout = 0 then W.each Speaker.put (x.layouts.take x.channelCount) else put64 x.omitted
      else W.skip) ;;
      (if x.objects then put8 x.objectCount else W.skip)
    else
      put8 w8(x.structure_ * 16 + x.ordering) ;; put8 x.baseChannelCount ;;
      if x.channels then
        put8 x.definedLayout ;;
        if x.definedLayout = 0 then
          put8 x.layoutChannelCount ;; W.each Speaker.put (x.layouts.take x.layoutChannelCount)
        else
          put8 w8(x.orderDefinition * 2 + x.omittedPresent) ;;
          if x.omittedPresent ≠ 0 then put64 x.omitted else W.skip
      else W.skip) ;;
    W.assertFull

/-- The channels of version 0: ChannelLayoutAtom.c 228-256. -/
def Chnl.readChannels0 (room : Bool) (size : Nat) (x : Chnl) : P Chnl :=
  if x.channels then do
    let definedLayout ← get8
    if definedLayout = 0 then
      let l ← whileBytes (Speaker.get room) (fun l s => l ++ [s]) [] size
      pure { x with layouts := l }
    else
      let m ← get64
      pure { x with definedLayout := definedLayout, omitted := m }
  else pure x

/-- ChannelLayoutAtom.c 257-260. -/
def Chnl.readObjects (x : Chnl) : P Chnl :=
  if x.objects then do
    let n ← get8
    pure { x with objectCount := n }
  else pure x

/-- The channels of later versions: ChannelLayoutAtom.c 268-303. -/
def Chnl.readChannels1 (room : Bool) (x : Chnl) : P Chnl :=
  if x.channels then do
    let definedLayout ← get8
    if definedLayout = 0 then
      let n ← get8
      let l ← P.repeat n (Speaker.get room)
      pure { x with layoutChannelCount := n, layouts := l }
    else
      let c ← get8
      let x := { x with definedLayout := definedLayout, orderDefinition := c / 2 % 8, omittedPresent := c % 2 }
      if c % 2 ≠ 0 then
        let m ← get64
        pure { x with omitted := m }
      else pure x
  else pure x

/-- `createFromInputStream`: ChannelLayoutAtom.c 214-310. The atom is created with zeros, and nothing sets
`channelCount`. -/
def Chnl.parse (room : Bool) (h : Hdr) : P (VF × Chnl) := do
  let vf ← getVersionFlags
  if vf.1 = 0 then
    let structure_ ← get8
    let x ← Chnl.readChannels0 room h.size ⟨0, structure_, 0, [], 0, 0, 0, 0, 0, 0, 0⟩
    let x ← x.readObjects
    assertRead h (vf, x)
  else
    let b ← get8
    let base ← get8
    let x ← Chnl.readChannels1 room ⟨0, b / 16, 0, [], 0, 0, b % 16, base, 0, 0, 0⟩
    assertRead h (vf, x)

/-! ## Downmix instructions -/

/-- `MP4DownMixInstructionsAtom`: MP4Atoms.h 980-990. `coefficients` is the block. -/
structure Dmix where
  baseChannelCount : Nat
  layout : Nat
  reserved : Nat
  targetChannelCount : Nat
  inStream : Nat
  id : Nat
  coefficients : List Nat
  deriving DecidableEq, Repr

/-- The two loops of DownMixInstructionsAtom.c 62-77, which visit the indices in order, and 78-82 after them: `odd` is
whether the next index is odd, `tmp` the variable `tmp8`. -/
def nibbles (odd : Bool) (tmp : Nat) : List Nat → W
  | [] => if odd then put8 w8(tmp + 0x0F) else W.skip
  | c :: cs => if odd then put8 w8(tmp + c) ;; nibbles false w8(tmp + c) cs else nibbles true w8(c * 16) cs

/-- `calculateSize`: DownMixInstructionsAtom.c 91-112. -/
def Dmix.size (x : Dmix) : Nat :=
  if x.inStream = 0 then
    w32(12 + 3 + x.baseChannelCount * x.targetChannelCount / 2 + x.baseChannelCount * x.targetChannelCount % 2)
  else 12 + 3

/-- `serialize`: DownMixInstructionsAtom.c 40-89. A coefficient after the block is not there to be read. -/
def Dmix.serialize (version flags : Nat) (x : Dmix) : W :=
  serFull x.size typeDmix version flags ;;
  put8 x.layout ;; put8 w8(x.reserved * 128 + x.targetChannelCount) ;; put8 w8(x.inStream * 128 + x.id) ;;
  (if x.inStream = 0 then
    if x.baseChannelCount * x.targetChannelCount ≤ x.coefficients.length then
      nibbles false 0 (x.coefficients.take (x.baseChannelCount * x.targetChannelCount))
    else W.bad
  else W.skip) ;;
  W.assertFull

/-- The body of the loop of DownMixInstructionsAtom.c 135-142: the 16-bit `count` is the number of coefficients, until it
is 0 again after 65536, and `realloc` gives a block of `count + 2`. -/
def addByte (block : List Nat) (b : Nat) : List Nat :=
  (if block.length = 65536 then [] else block) ++ [b / 16, b % 16]

/-- `createFromInputStream`: DownMixInstructionsAtom.c 114-149. Nothing sets `baseChannelCount`. -/
def Dmix.parse (h : Hdr) : P (VF × Dmix) := do
  let vf ← getVersionFlags
  let layout ← get8
  let b ← get8
  let c ← get8
  let l ← whileBytes get8 addByte [] h.size
  assertRead h (vf, ⟨0, layout, b / 128, b % 128, c / 128, c % 128, l⟩)

/-! ## Loudness -/

/-- `MP4LoudnessBaseMeasurement`: MP4Atoms.h 992-998. Four bytes. -/
structure Measurement where
  method : Nat
  value : Nat
  system : Nat
  reliability : Nat
  deriving DecidableEq, Repr

/-- LoudnessBaseAtom.c 88-91. -/
def Measurement.put (x : Measurement) : W :=
  put8 x.method ;; put8 x.value ;; put8 w8(x.system * 16 + x.reliability)

/-- LoudnessBaseAtom.c 165-171: `GET8_V` on the second byte stores into the fifth. -/
def Measurement.get (room : Bool) : P Measurement := do
  let method ← get8
  let value ← get8
  if room then
    let b ← get8
    pure ⟨method, value, b / 16, b % 16⟩
  else P.bad

/-- `MP4LoudnessBaseAtom`: MP4Atoms.h 1000-1012. -/
structure Lou where
  reserved : Nat
  downmix : Nat
  drcSet : Nat
  samplePeak : Int
  truePeak : Int
  systemTP : Nat
  reliabilityTP : Nat
  count : Nat
  measurements : List Measurement
  deriving DecidableEq, Repr

/-- The bits of an `s16`. -/
def bits16 (v : Int) : Nat := (v % 65536).toNat

/-- Conversion to `s16`. -/
def toS16 (v : Int) : Int := if v % 65536 < 32768 then v % 65536 else v % 65536 - 65536

/-- `calculateSize`: LoudnessBaseAtom.c 101-117. -/
def Lou.size (x : Lou) : Nat := w32(12 + 7 + 3 * x.count)

/-- `serialize`: LoudnessBaseAtom.c 57-99. The result of `MP4GetListEntry` is not tested. -/
def Lou.serialize (type version flags : Nat) (x : Lou) : W :=
  serFull x.size type version flags ;;
  put8 w8(x.reserved * 32 + x.downmix / 4) ;;
  put8 w8(x.downmix * 64 + x.drcSet) ;;
  put8 (bits16 x.samplePeak / 16 % 256) ;;
  put8 w8(bits16 x.samplePeak % 16 * 16 + bits16 x.truePeak / 256 % 16) ;;
  put8 (bits16 x.truePeak % 256) ;;
  put8 w8(x.systemTP * 16 + x.reliabilityTP) ;;
  put8 x.count ;;
  (if x.count ≤ x.measurements.length then W.each Measurement.put (x.measurements.take x.count) else W.bad) ;;
  W.assertFull

/-- The fields after version and flags: LoudnessBaseAtom.c 132-173. -/
def Lou.get (room : Bool) : P Lou := do
  let b0 ← get8
  let b1 ← get8
  let b2 ← get8
  let b3 ← get8
  let sample := toS16 (toS16 (toS16 b2 * 16 + b3 / 16) * 16) / 16
  let b4 ← get8
  let true_ := toS16 (toS16 (toS16 (b3 % 16) * 256 + b4) * 16) / 16
  let b5 ← get8
  let count ← get8
  let l ← P.repeat count (Measurement.get room)
  pure ⟨b0 / 32, w8(b0 % 32 * 4 + b1 / 64), b1 % 64, sample, true_, b5 / 16, b5 % 16, count, l⟩

/-- `createFromInputStream`: LoudnessBaseAtom.c 119-180. -/
def Lou.parse (room : Bool) (h : Hdr) : P (VF × Lou) := do
  let vf ← getVersionFlags
  let x ← Lou.get room
  assertRead h (vf, x)

variable {α : Type}

/-- A box in the loudness box. -/
inductive Lx (α : Type) where
  | track (vf : VF) (x : Lou)
  | album (vf : VF) (x : Lou)
  | other (x : α)

/-- The class of LoudnessBaseAtom.c, and of other boxes. -/
def loudness (room : Bool) (C : Class α) : Class (Lx α) where
  parse h :=
    if h.type = typeTlou then P.as (fun v => .track v.1 v.2) (Lou.parse room h)
    else if h.type = typeAlou then P.as (fun v => .album v.1 v.2) (Lou.parse room h)
    else P.as .other (C.parse h)
  size
    | .track _ x => x.size
    | .album _ x => x.size
    | .other x => C.size x
  ser
    | .track vf x => x.serialize typeTlou vf.1 vf.2
    | .album vf x => x.serialize typeAlou vf.1 vf.2
    | .other x => C.ser x

/-- `MP4LoudnessAtom`: the two lists. -/
structure Ludt where
  tracks : List (VF × Lou)
  albums : List (VF × Lou)
  deriving DecidableEq, Repr

/-- What is written: LoudnessAtom.c 78-79. -/
def Ludt.boxes (x : Ludt) : List (Lx α) :=
  x.tracks.map (fun v => Lx.track v.1 v.2) ++ x.albums.map (fun v => Lx.album v.1 v.2)

/-- `addAtom`: LoudnessAtom.c 52-66. Other boxes are forgotten. -/
def Ludt.add (acc : Ludt) (_ : Nat) : Lx α → Res Ludt
  | .track vf x => .ok { acc with tracks := acc.tracks ++ [(vf, x)] }
  | .album vf x => .ok { acc with albums := acc.albums ++ [(vf, x)] }
  | .other _ => .ok acc

/-- LoudnessAtom.c 68-86 and 127-172. `addList` drops boxes of type `free` and `skip`, as `addAtom` does here. -/
def ludt (room : Bool) (C : Class α) : Class Ludt where
  parse h := do
    let v ← addList (loudness room C) Ludt.add ⟨[], []⟩ h.size
    assertRead h v
  size x := listSize (loudness room C) 8 x.boxes
  ser x := serBase (listSize (loudness room C) 8 x.boxes) typeLudt ;; serList (loudness room C) x.boxes ;; W.assertFull

/-- `getDataSize` and `serializeData`: LoudnessAtom.c 88-125, on an atom whose `bytesWritten` is 0; the size of the atom
is that of the whole box. -/
def ludtData (room : Bool) (C : Class α) (x : Ludt) : Res (Nat × Bytes) := do
  let size := listSize (loudness room C) 8 x.boxes
  let b ← runW size (serList (loudness room C) x.boxes)
  .ok (w32(size + 4294967296 - 8), b)

end Verif.Snd
