import Verif.Spec.FragFile
import Verif.Spec.Merge
import Verif.Model.FragOpen

/-!
# C58: what should be reported about samples that were added to fragments
-/

namespace Verif.FragFile

open Traf (Entry)
open Merge (Table Info lengthen isSync info)

/-- The fragments in which samples were added to track `i`, with the decode times at which they start and
what was added; `time` is the decode time reached before. -/
def segments (i : Nat) : Nat → List (List Op) → List (Nat × List Samples)
  | _, [] => []
  | time, f :: fs =>
    if adds i f = [] then segments i (time + delays f) fs
    else (time + delays f, adds i f) :: segments i (time + delays f + spent i f) fs

/-- The durations: those asked for, and where a fragment starts later than the one before it ends, the last
sample before lasts until then. -/
def timeline (gs : List (Nat × List Samples)) (D : List Nat) : List Nat :=
  gs.foldl (fun D g => lengthen D (some g.1) ++ g.2.flatMap fun s => s.wanted.map Entry.duration) D

/-- All samples that were added to track `i`. -/
def allSamples (i : Nat) (fs : List (List Op)) : List Entry := (fs.flatMap (adds i)).flatMap Samples.wanted

/-- The data cut into pieces of these sizes. -/
def cut : List Nat → Bytes → List Bytes
  | [], _ => []
  | n :: ns, bs => bs.take n :: cut ns (bs.drop n)

/-- The data of all samples that were added to track `i`. -/
def allData (i : Nat) (fs : List (List Op)) : List Bytes :=
  (fs.flatMap (adds i)).flatMap fun s => cut (s.wanted.map Entry.size) s.data

/-- After opening, sample number `n + 1` of the track is reported as it was asked for, and its bytes are
where the report says. -/
def Reported (file : Bytes) (m : Table) (es : List Entry) (ds : List Bytes) (D : List Nat) : Prop :=
  es.length = ds.length ∧ es.length = D.length ∧ m.stsz.count = es.length ∧
  ∀ (n : Nat) (e : Entry) (b : Bytes) (d : Nat), es[n]? = some e → ds[n]? = some b → D[n]? = some d →
    ∃ place, info m (n + 1) = .ok ⟨place, e.size, startOf D n, e.offset, d, isSync e, 0xF8, 0, 1⟩ ∧
      (file.drop place).take e.size = b

/-- Restrictions that merging needs (C54), for the calls that added samples to one track, in order. -/
structure Playable (L : List Samples) : Prop where
  /-- The first call has a composition offset that is not 0, or none has. -/
  offs : (∀ s, L.head? = some s → ∃ e ∈ s.wanted, e.offset ≠ 0) ∨ ∀ s ∈ L, ∀ e ∈ s.wanted, e.offset = 0
  /-- After a call with a sample that is not a sync sample, every call has one. -/
  sync : L.Pairwise fun a b => (∃ e ∈ a.wanted, isSync e = false) → ∃ e ∈ b.wanted, isSync e = false
  /-- The first call has samples of different sizes or of size 0, or all samples have the same size. -/
  sizes : (∀ s, L.head? = some s → ∃ a ∈ s.wanted, ∃ b ∈ s.wanted, a.size = 0 ∨ a.size ≠ b.size) ∨
    ∀ a ∈ L.flatMap Samples.wanted, ∀ b ∈ L.flatMap Samples.wanted, a.size = b.size

/-- The same for the track, with its times. -/
structure TrackPlayable (i : Nat) (t : Track) (fs : List (List Op)) : Prop where
  index : t.trex.descIndex = 1
  calls : Playable (fs.flatMap (adds i))
  /-- The first fragment with samples starts at 0. -/
  start : ∀ g, (segments i t.time fs).head? = some g → g.1 = 0
  durations : ∀ d ∈ timeline (segments i t.time fs) [], d < 2 ^ 31

end Verif.FragFile
