import Verif.Model.FragFile
import Verif.Spec.Box

/-!
# C56: what is asked for when samples are added to fragments, and what a file must hold
-/

namespace Verif.FragFile

open Traf (Entry Trex)

/-- One value for each sample, or one for all. -/
def each (l : List Nat) (i : Nat) : Nat := if l.length = 1 then l.headD 0 else l.getD i 0

/-- Sample `i` (from 0) of those asked for; in the flags, bit 16 says that a sample is not a sync sample.
Without a list of sync samples all are sync samples. -/
def Samples.sample (s : Samples) (i : Nat) : Entry where
  duration := each s.durations i
  size := each s.sizes i
  flags := match s.syncs with
    | none => 0
    | some l => if i + 1 ∈ l then 0 else 2 ^ 16
  offset := match s.offsets with
    | none => 0
    | some l => l.getD i 0

def Samples.wanted (s : Samples) : List Entry := (List.range s.count).map s.sample

/-- The lists agree with the number of samples and with the data; no padding is asked for. -/
structure Samples.Good (s : Samples) : Prop where
  nonempty : 0 < s.count
  durations : s.durations.length = s.count ∨ s.durations.length = 1
  sizes : s.sizes.length = s.count ∨ s.sizes.length = 1
  offsets : ∀ l, s.offsets = some l → l.length = s.count
  syncs : ∀ l, s.syncs = some l → l.Nodup ∧ ∀ k ∈ l, 1 ≤ k ∧ k ≤ s.count
  pads : s.pads = none
  range : (∀ d ∈ s.durations, d < 2 ^ 32) ∧ (∀ d ∈ s.sizes, d < 2 ^ 32) ∧
    ∀ l, s.offsets = some l → ∀ d ∈ l, d < 2 ^ 32
  data : (s.wanted.map Entry.size).sum = s.data.length

/-! ## A fragment -/

/-- What was added to track `i`. -/
def adds (i : Nat) : List Op → List Samples
  | [] => []
  | .add j s :: ops => if j = i then s :: adds i ops else adds i ops
  | .delay _ :: ops => adds i ops

/-- All delays. -/
def delays : List Op → Nat
  | [] => 0
  | .add _ _ :: ops => delays ops
  | .delay d :: ops => d + delays ops

/-- All data, in the order it was added. -/
def dataOf : List Op → Bytes
  | [] => []
  | .add _ s :: ops => s.data ++ dataOf ops
  | .delay _ :: ops => dataOf ops

/-- The durations of what was added to track `i`. -/
def spent (i : Nat) (ops : List Op) : Nat := ((adds i ops).map fun s => (s.wanted.map Entry.duration).sum).sum

/-- How far decoding has got after a fragment. -/
def advance (ts : List Track) (ops : List Op) : List Track :=
  ts.mapIdx fun i t => { t with time := t.time + delays ops + spent i ops }

/-- The tracks that samples were added to, with their index. -/
def present (ts : List Track) (ops : List Op) : List (Track × Nat) :=
  ts.zipIdx.filter fun t => !(adds t.2 ops).isEmpty

/-- Lists of the same length whose elements are related one by one. -/
def Each {α β : Type} (R : α → β → Prop) (xs : List α) (ys : List β) : Prop :=
  xs.length = ys.length ∧ ∀ (k : Nat) (x : α) (y : β), xs[k]? = some x → ys[k]? = some y → R x y

/-- A run has the samples asked for, and their data is where the run says. -/
def RunIs (file : Bytes) (r : Nat × List Entry) (s : Samples) : Prop :=
  r.2 = s.wanted ∧ (file.drop r.1).take s.data.length = s.data

/-- What was found for a track. -/
structure TrackIs (file : Bytes) (ops : List Op) (x : Found) (t : Track × Nat) : Prop where
  track : x.track = t.1.id
  time : x.time = some (t.1.time + delays ops)
  runs : Each (RunIs file) x.runs (adds t.2 ops)

def mdatBox (d : Bytes) : Bytes := if d = [] then [] else box (fcc 'm' 'd' 'a' 't') d

/-- From `pos` on the file consists of the fragments, numbered from `seq`, each followed by its media
data, and nothing else; reading a fragment gives what was added. -/
def Written (trex : Nat → Option Trex) (file : Bytes) : Nat → Nat → List Track → List (List Op) → Prop
  | pos, _, _, [] => pos = file.length
  | pos, seq, ts, f :: fs => ∃ n founds,
      openAt trex file pos = .ok (some ⟨0, 0, seq⟩, n, founds) ∧
      Each (TrackIs file f) founds (present ts f) ∧
      (file.drop (pos + n)).take (mdatBox (dataOf f)).length = mdatBox (dataOf f) ∧
      Written trex file (pos + n + (mdatBox (dataOf f)).length) (seq + 1) (advance ts f) fs

/-! ## What is in range -/

/-- An upper bound for the bytes a fragment takes. -/
def cost : Op → Nat
  | .add _ s => 24 + 16 * s.count + s.data.length
  | .delay _ => 0

def room (ts : List Track) (ops : List Op) : Nat := 32 + 68 * ts.length + (ops.map cost).sum

def OpOk (ts : List Track) : Op → Prop
  | .add i s => i < ts.length ∧ s.Good
  | .delay _ => True

/-- The file stays below 2 GB, the decode times below 2^32. -/
structure InRange (trex : Nat → Option Trex) (pre : Bytes) (seq : Nat) (ts : List Track)
    (fs : List (List Op)) : Prop where
  ops : ∀ f ∈ fs, ∀ op ∈ f, OpOk ts op
  room : pre.length + (fs.map (room ts)).sum < 2 ^ 31
  seq : seq + fs.length ≤ 2 ^ 32
  time : ∀ i t, ts[i]? = some t → t.time + (fs.map fun f => delays f + spent i f).sum < 2 ^ 32
  ids : ∀ t ∈ ts, 0 < t.id ∧ t.id < 2 ^ 32 ∧ t.trex.descIndex < 2 ^ 32 ∧ trex t.id = some t.trex

end Verif.FragFile
