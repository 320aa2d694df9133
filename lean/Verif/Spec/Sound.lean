import Verif.Model.Sound
import Verif.Spec.Entries

/-!
# Channel layout, downmix instructions and loudness on the wire
-/

namespace Verif.Snd

open Verif.Ent (Kid Reads)
open Verif.Rows (VF)

/-- ISO/IEC 14496-12, 12.2.4.2: a position; 126 is followed by the azimuth and the elevation. -/
def Speaker.wire (x : Speaker) : Bytes :=
  be 1 x.position ++ if x.position = 126 then be 2 x.azimuth ++ be 1 x.elevation else []

structure Speaker.Fits (x : Speaker) : Prop where
  position : x.position < 256
  azimuth : x.azimuth < 65536
  elevation : x.elevation < 256
  rest : x.position ≠ 126 → x.azimuth = 0 ∧ x.elevation = 0

def placesWire (ss : List Speaker) : Bytes := ss.flatMap Speaker.wire

/-- No damage by the stores of four bytes: there is room, or no position has the angles. -/
def Safe (room : Bool) (ss : List Speaker) : Prop := room = true ∨ ∀ x ∈ ss, x.position ≠ 126

/-! ## Version 0 -/

/-- The channels of version 0: none, listed, or a known layout with a map of the omitted channels. -/
inductive Part0 where
  | none
  | listed (ss : List Speaker)
  | known (layout omitted : Nat)

def Part0.bit : Part0 → Nat
  | .none => 0
  | _ => 1

def Part0.wire : Part0 → Bytes
  | .none => []
  | .listed ss => be 1 0 ++ placesWire ss
  | .known l m => be 1 l ++ be 8 m

/-- The content of version 0: `other` is the six bits of the stream structure that say nothing. -/
structure Scene0 where
  other : Nat
  part : Part0
  objects : Option Nat

def Scene0.bits (s : Scene0) : Nat := 4 * s.other + (if s.objects.isSome then 2 else 0) + s.part.bit

def Scene0.wire (s : Scene0) : Bytes := be 1 s.bits ++ (s.part.wire ++ s.objects.elim [] (be 1))

def Part0.Fits : Part0 → Prop
  | .none => True
  | .listed ss => ss.length < 65536 ∧ ∀ x ∈ ss, x.Fits
  | .known l m => 0 < l ∧ l < 256 ∧ m < 18446744073709551616

def Scene0.Fits (s : Scene0) : Prop := s.other < 64 ∧ s.part.Fits ∧ ∀ n ∈ s.objects, n < 256

def Part0.Safe (room : Bool) : Part0 → Prop
  | .listed ss => Snd.Safe room ss
  | _ => True

/-- What an atom holds that is to be written as the scene; its other fields are free. -/
structure Scene0.Held (s : Scene0) (x : Chnl) : Prop where
  bits : x.structure_ = s.bits
  part : match s.part with
    | .none => True
    | .listed ss => x.definedLayout = 0 ∧ x.channelCount = ss.length ∧ x.layouts.take ss.length = ss
    | .known l m => x.definedLayout = l ∧ x.omitted = m
  objects : ∀ n ∈ s.objects, x.objectCount = n

/-- What is in memory after the scene was read; the number of channels is not. -/
def Scene0.mem (s : Scene0) : Chnl :=
  match s.part with
  | .none => ⟨0, s.bits, 0, [], 0, s.objects.getD 0, 0, 0, 0, 0, 0⟩
  | .listed ss => ⟨0, s.bits, 0, ss, 0, s.objects.getD 0, 0, 0, 0, 0, 0⟩
  | .known l m => ⟨0, s.bits, l, [], m, s.objects.getD 0, 0, 0, 0, 0, 0⟩

/-! ## Later versions -/

/-- The channels of version 1. -/
inductive Part1 where
  | none
  | listed (ss : List Speaker)
  | known (layout order : Nat) (omitted : Option Nat)

def Part1.bit : Part1 → Nat
  | .none => 0
  | _ => 1

def Part1.wire : Part1 → Bytes
  | .none => []
  | .listed ss => be 1 0 ++ (be 1 ss.length ++ placesWire ss)
  | .known l o m => be 1 l ++ (be 1 (2 * o + if m.isSome then 1 else 0) ++ m.elim [] (be 8))

/-- The content of version 1: `other` is three bits of the stream structure. -/
structure Scene1 where
  other : Nat
  ordering : Nat
  base : Nat
  part : Part1

def Scene1.bits (s : Scene1) : Nat := 2 * s.other + s.part.bit

def Scene1.wire (s : Scene1) : Bytes := be 1 (16 * s.bits + s.ordering) ++ (be 1 s.base ++ s.part.wire)

def Part1.Fits : Part1 → Prop
  | .none => True
  | .listed ss => ss.length < 256 ∧ ∀ x ∈ ss, x.Fits
  | .known l o m => (0 < l ∧ l < 256) ∧ o < 8 ∧ ∀ n ∈ m, n < 18446744073709551616

def Scene1.Fits (s : Scene1) : Prop := s.other < 8 ∧ s.ordering < 16 ∧ s.base < 256 ∧ s.part.Fits

def Part1.Safe (room : Bool) : Part1 → Prop
  | .listed ss => Snd.Safe room ss
  | _ => True

/-- The scene in memory. -/
def Scene1.mem (s : Scene1) : Chnl :=
  match s.part with
  | .none => ⟨0, s.bits, 0, [], 0, 0, s.ordering, s.base, 0, 0, 0⟩
  | .listed ss => ⟨0, s.bits, 0, ss, 0, 0, s.ordering, s.base, ss.length, 0, 0⟩
  | .known l o m => ⟨0, s.bits, l, [], m.getD 0, 0, s.ordering, s.base, 0, o, if m.isSome then 1 else 0⟩

/-! ## Downmix instructions -/

/-- ISO/IEC 14496-12, 12.2.5.2: coefficients of four bits, and four bits 1 after an odd number. -/
def pack : List Nat → Bytes
  | a :: b :: l => be 1 (16 * a + b) ++ pack l
  | [a] => be 1 (16 * a + 15)
  | [] => []

/-- The three bytes before the coefficients. -/
def Dmix.head (x : Dmix) : Bytes :=
  be 1 x.layout ++ (be 1 (128 * x.reserved + x.targetChannelCount) ++ be 1 (128 * x.inStream + x.id))

structure Dmix.Fits (x : Dmix) : Prop where
  layout : x.layout < 256
  reserved : x.reserved < 2
  target : x.targetChannelCount < 128
  inStream : x.inStream < 2
  id : x.id < 128

/-- The halves of the bytes. -/
def halves (b : Bytes) : List Nat := b.flatMap fun x => [x.toNat / 16, x.toNat % 16]

/-- What is left of a list when each 65536 elements the next one starts it anew. -/
def lastBlock (l : List Nat) : List Nat := l.drop (65536 * ((l.length - 1) / 65536))

/-- The coefficients with the padding. -/
def padded (l : List Nat) : List Nat := if l.length % 2 = 1 then l ++ [15] else l

/-! ## Loudness -/

/-- The value as twelve bits, two's complement. -/
def two12 (v : Int) : Nat := (v % 4096).toNat

/-- The value that twelve bits are. -/
def wrap12 (v : Int) : Int := (v + 2048) % 4096 - 2048

def Measurement.wire (x : Measurement) : Bytes :=
  be 1 x.method ++ (be 1 x.value ++ be 1 (16 * x.system + x.reliability))

structure Measurement.Fits (x : Measurement) : Prop where
  method : x.method < 256
  value : x.value < 256
  system : x.system < 16
  reliability : x.reliability < 16

/-- ISO/IEC 14496-12, 12.2.7.2 `LoudnessBaseBox`: 3 reserved bits, 7 of the downmix, 6 of the DRC set; two levels of 12
bits; two times 4 bits; the measurements after their number. -/
def Lou.wire (x : Lou) : Bytes :=
  be 2 (8192 * x.reserved + 64 * x.downmix + x.drcSet) ++ (be 3 (4096 * two12 x.samplePeak + two12 x.truePeak) ++
    (be 1 (16 * x.systemTP + x.reliabilityTP) ++ (be 1 x.measurements.length ++ x.measurements.flatMap Measurement.wire)))

structure Lou.Fits (x : Lou) : Prop where
  reserved : x.reserved < 8
  downmix : x.downmix < 128
  drcSet : x.drcSet < 64
  sample : -32768 ≤ x.samplePeak ∧ x.samplePeak < 32768
  true_ : -32768 ≤ x.truePeak ∧ x.truePeak < 32768
  systemTP : x.systemTP < 16
  reliabilityTP : x.reliabilityTP < 16
  count : x.count = x.measurements.length ∧ x.count < 256
  measurements : ∀ m ∈ x.measurements, m.Fits

def InRange (v : Int) : Prop := -2048 ≤ v ∧ v < 2048

/-- Both levels are numbers of twelve bits. -/
def Lou.Levels (x : Lou) : Prop := InRange x.samplePeak ∧ InRange x.truePeak

def Lou.Safe (room : Bool) (x : Lou) : Prop := room = true ∨ x.measurements = []

/-- The value that is read for `x`. -/
def Lou.wrapped (x : Lou) : Lou := { x with samplePeak := wrap12 x.samplePeak, truePeak := wrap12 x.truePeak }

variable {α : Type}

/-- What can be in the loudness box: loudness of the track or of the album with its version and flags, or another box. -/
inductive Item (α : Type) where
  | track (v f : Nat) (x : Lou)
  | album (v f : Nat) (x : Lou)
  | other (k : Kid α)

def Item.wire : Item α → Bytes
  | .track v f x => fullBox (fcc 't' 'l' 'o' 'u') v f x.wire
  | .album v f x => fullBox (fcc 'a' 'l' 'o' 'u') v f x.wire
  | .other k => k.bytes

def Sound (room : Bool) (v f : Nat) (x : Lou) : Prop :=
  v < 256 ∧ f < 16777216 ∧ x.Fits ∧ x.Levels ∧ x.Safe room

def Item.Good (room : Bool) (C : Ent.Class α) : Item α → Prop
  | .track v f x => Sound room v f x
  | .album v f x => Sound room v f x
  | .other k => Reads C k.type k.val k.bytes ∧ k.type ≠ fcc 't' 'l' 'o' 'u' ∧ k.type ≠ fcc 'a' 'l' 'o' 'u'

def itemsWire (is : List (Item α)) : Bytes := is.flatMap Item.wire

def tracks : List (Item α) → List (VF × Lou)
  | [] => []
  | .track v f x :: is => ((v, f), x) :: tracks is
  | _ :: is => tracks is

def albums : List (Item α) → List (VF × Lou)
  | [] => []
  | .album v f x :: is => ((v, f), x) :: albums is
  | _ :: is => albums is

/-- Boxes of one type. -/
def infoWire (type : Nat) (l : List (VF × Lou)) : Bytes := l.flatMap fun y => fullBox type y.1.1 y.1.2 y.2.wire

/-- The content that is written for the two lists. -/
def Ludt.wire (x : Ludt) : Bytes := infoWire (fcc 't' 'l' 'o' 'u') x.tracks ++ infoWire (fcc 'a' 'l' 'o' 'u') x.albums

def Ludt.Good (room : Bool) (x : Ludt) : Prop :=
  (∀ y ∈ x.tracks, Sound room y.1.1 y.1.2 y.2) ∧ ∀ y ∈ x.albums, Sound room y.1.1 y.1.2 y.2

end Verif.Snd
