import Verif.Model.FragFile
import Verif.Spec.Box

/-!
# C57: movie fragments as the standard defines them (ISO/IEC 14496-12, 8.8.4 - 8.8.8, 8.8.12)

A fragment by any writer: which optional fields there are, the bytes of the boxes, and the samples and
the places of their data.
-/

namespace Verif.Conform

open Traf (Entry Trex)

/-- A track run. `durations` etc. say whether the field is there for each sample; a field that is not
there is of no importance in `samples`. -/
structure ARun where
  version : Nat
  place : Option Int
  first : Option Nat
  durations : Bool
  sizes : Bool
  flags : Bool
  offsets : Bool
  samples : List Entry

/-- A track fragment: its header, decode time (with 64 bits or with 32) and runs. -/
structure ATraf where
  id : Nat
  base : Option Nat
  desc : Option Nat
  duration : Option Nat
  size : Option Nat
  flags : Option Nat
  empty : Bool
  fromMoof : Bool
  time : Option (Bool × Nat)
  runs : List ARun

/-! ## Bytes -/

def bit (b : Bool) (n : Nat) : Nat := if b then n else 0

/-- A number of 4 bytes in two's complement. -/
def be4i (x : Int) : Bytes := be 4 (x % 2 ^ 32).toNat

def may (f : Nat → Bytes) : Option Nat → Bytes
  | none => []
  | some v => f v

def ARun.tr_flags (r : ARun) : Nat :=
  bit r.place.isSome 1 + bit r.first.isSome 4 + bit r.durations 0x100 + bit r.sizes 0x200 + bit r.flags 0x400 +
    bit r.offsets 0x800

def ARun.entry (r : ARun) (e : Entry) : Bytes :=
  (if r.durations then be 4 e.duration else []) ++ (if r.sizes then be 4 e.size else []) ++
    (if r.flags then be 4 e.flags else []) ++ (if r.offsets then be 4 e.offset else [])

def ARun.bytes (r : ARun) : Bytes :=
  fullBox (fcc 't' 'r' 'u' 'n') r.version r.tr_flags
    (be 4 r.samples.length ++ (match r.place with | none => [] | some o => be4i o) ++ may (be 4) r.first ++
      r.samples.flatMap r.entry)

def ATraf.tf_flags (t : ATraf) : Nat :=
  bit t.base.isSome 1 + bit t.desc.isSome 2 + bit t.duration.isSome 8 + bit t.size.isSome 0x10 +
    bit t.flags.isSome 0x20 + bit t.empty 0x10000 + bit t.fromMoof 0x20000

def ATraf.header (t : ATraf) : Bytes :=
  fullBox (fcc 't' 'f' 'h' 'd') 0 t.tf_flags
    (be 4 t.id ++ may (be 8) t.base ++ may (be 4) t.desc ++ may (be 4) t.duration ++ may (be 4) t.size ++
      may (be 4) t.flags)

def timeBox : Option (Bool × Nat) → Bytes
  | none => []
  | some (true, v) => fullBox (fcc 't' 'f' 'd' 't') 1 0 (be 8 v)
  | some (false, v) => fullBox (fcc 't' 'f' 'd' 't') 0 0 (be 4 v)

def ATraf.bytes (t : ATraf) : Bytes :=
  box (fcc 't' 'r' 'a' 'f') (t.header ++ timeBox t.time ++ t.runs.flatMap ARun.bytes)

def moofBytes (seq : Nat) (ts : List ATraf) : Bytes :=
  box (fcc 'm' 'o' 'o' 'f') (fullBox (fcc 'm' 'f' 'h' 'd') 0 0 (be 4 seq) ++ ts.flatMap ATraf.bytes)

/-! ## Meaning -/

/-- A sample: a field of its own, or the default of the fragment, or the default of the track. The flags
of the first sample may be given apart. Without composition offsets they are 0. -/
def sampleOf (x : Trex) (t : ATraf) (r : ARun) (first : Bool) (e : Entry) : Entry where
  duration := if r.durations then e.duration else t.duration.getD x.duration
  size := if r.sizes then e.size else t.size.getD x.size
  flags := match first, r.first with
    | true, some f => f
    | _, _ => if r.flags then e.flags else t.flags.getD x.sampleFlags
  offset := if r.offsets then e.offset else 0

def samplesOf (x : Trex) (t : ATraf) (r : ARun) : List Entry :=
  match r.samples with
  | [] => []
  | e :: es => sampleOf x t r true e :: es.map (sampleOf x t r false)

/-- How many bytes the samples of a run have. -/
def dataSize (x : Trex) (t : ATraf) (r : ARun) : Nat := ((samplesOf x t r).map Entry.size).sum

/-- The runs of a track fragment, with the place of the data of each: at the offset that is given, counted
from the base; or else behind the data of the run before, and for the first run at the base. -/
def runsFrom (x : Trex) (t : ATraf) (base : Int) : Int → List ARun → List (Int × List Entry)
  | _, [] => []
  | last, r :: rs =>
    (match r.place with | some o => base + o | none => last, samplesOf x t r) ::
      runsFrom x t base ((match r.place with | some o => base + o | none => last) + dataSize x t r) rs

/-- Where the data of a track fragment ends. -/
def endFrom (x : Trex) (t : ATraf) (base : Int) : Int → List ARun → Int
  | last, [] => last
  | last, r :: rs =>
    endFrom x t base ((match r.place with | some o => base + o | none => last) + dataSize x t r) rs

/-- The base of a track fragment: as given; or the start of the fragment box; or the end of the data of
the track fragment before. -/
def baseOf (moof : Nat) (prev : Int) (t : ATraf) : Int :=
  match t.base with
  | some b => b
  | none => if t.fromMoof then moof else prev

structure Meaning where
  track : Nat
  time : Option Nat
  runs : List (Int × List Entry)

/-- All track fragments; for the first one `prev` is the start of the fragment box. -/
def meaning (trex : Nat → Option Trex) (moof : Nat) : Int → List ATraf → List Meaning
  | _, [] => []
  | prev, t :: ts =>
    let x := (trex t.id).getD ⟨0, 0, 0, 0⟩
    ⟨t.id, t.time.map (·.2), runsFrom x t (baseOf moof prev t) (baseOf moof prev t) t.runs⟩ ::
      meaning trex moof (endFrom x t (baseOf moof prev t) (baseOf moof prev t) t.runs) ts

/-- What the reader found, in the same terms. -/
def asMeaning (f : FragFile.Found) : Meaning := ⟨f.track, f.time, f.runs.map fun r => ((r.1 : Int), r.2)⟩

/-! ## In range -/

def fits (bound : Nat) (v : Option Nat) : Prop := ∀ n, v = some n → n < bound

structure RunOk (r : ARun) : Prop where
  version : r.version < 2 ^ 8
  place : ∀ o, r.place = some o → -2 ^ 31 ≤ o ∧ o < 2 ^ 31
  first : fits (2 ^ 32) r.first
  /-- Flags for the first sample and flags for each sample exclude each other. -/
  either : r.first.isSome → r.flags = false
  some : r.samples ≠ []
  count : r.samples.length < 2 ^ 32
  samples : ∀ e ∈ r.samples, e.duration < 2 ^ 32 ∧ e.size < 2 ^ 32 ∧ e.flags < 2 ^ 32 ∧ e.offset < 2 ^ 32

structure TrafOk (trex : Nat → Option Trex) (t : ATraf) : Prop where
  id : 0 < t.id ∧ t.id < 2 ^ 32
  known : (trex t.id).isSome
  base : fits (2 ^ 64) t.base
  desc : fits (2 ^ 32) t.desc
  duration : fits (2 ^ 32) t.duration
  size : fits (2 ^ 32) t.size
  flags : fits (2 ^ 32) t.flags
  time : ∀ w v, t.time = some (w, v) → v < if w then 2 ^ 64 else 2 ^ 32
  /-- With an empty duration there are no runs. -/
  empty : t.empty → t.runs = []
  runs : ∀ r ∈ t.runs, RunOk r

/-- The data is at a place of 64 bits. -/
def Placed (m : Meaning) : Prop := ∀ r ∈ m.runs, 0 ≤ r.1 ∧ r.1 < 2 ^ 64

/-- Every run but the first of a track fragment has its offset. -/
def Offsets (t : ATraf) : Prop := ∀ r ∈ t.runs.tail, r.place.isSome

/-- A track fragment that is based on the one before comes behind at most one run, that ends in the first
4 GB of the file. -/
def Chained (trex : Nat → Option Trex) (moof : Nat) : Int → List ATraf → Prop
  | _, [] => True
  | _, [_] => True
  | prev, t :: u :: ts =>
    let x := (trex t.id).getD ⟨0, 0, 0, 0⟩
    let stop := endFrom x t (baseOf moof prev t) (baseOf moof prev t) t.runs
    (u.base.isSome ∨ u.fromMoof ∨ (t.runs.length ≤ 1 ∧ 0 ≤ stop ∧ stop < 2 ^ 32)) ∧
      Chained trex moof stop (u :: ts)

end Verif.Conform
