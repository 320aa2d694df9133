import Verif.Model.Defaults
import Verif.Spec.Batch
import Verif.Spec.Traf

/-!
# Specification: the defaults of the fragments of a track

A call gives defaults to a track. Of the samples of a fragment only that is written which differs from the defaults the writer goes by; the
reader has the defaults that are in the file, and so they have to be the same.
-/

namespace Verif.Defs

structure Call where
  id : Nat
  duration : Nat
  size : Nat
  isSync : Nat
  pad : Nat
  deriving DecidableEq, Repr

def apply (m : Movie) (c : Call) : Res Movie := setDefaults m c.id c.duration c.size c.isSync c.pad

/-- A call that can be made: for a track of the movie, with values of the types of the parameters. -/
structure Call.Fits (tracks : List Track) (c : Call) : Prop where
  track : ∃ t ∈ tracks, t.id = c.id
  duration : c.duration < 2 ^ 32
  size : c.size < 2 ^ 32

/-- Tracks of a movie: different numbers, none of them 0. -/
structure TracksFit (l : List Track) : Prop where
  different : (l.map (·.id)).Nodup
  number : ∀ t ∈ l, 0 < t.id ∧ t.id < 2 ^ 32
  desc : ∀ t ∈ l, t.desc < 2 ^ 32

/-- What a call says about a sample: three bits of padding from bit 17 on, bit 16 for a sample that is not a sync sample (ISO/IEC
14496-12, 8.8.3.1). -/
def Call.flags (c : Call) : Nat := c.pad % 8 * 2 ^ 17 + (if c.isSync = 0 then 2 ^ 16 else 0)

/-- The defaults that a call gives to a track. -/
def Call.trex (c : Call) (t : Track) : Traf.Trex := ⟨t.desc, c.duration, c.size, c.flags⟩

/-- The calls are made, and the first fragment is started. -/
def session (m : Movie) (calls : List Call) : Res Movie := (runAll apply m calls).bind start

/-- Samples put into a fragment. -/
def put (f : Traf.Traf) (base : Nat) (runs : List Traf.Run) : Traf.Traf := { f with tfhd := { f.tfhd with base := base }, runs := runs }

end Verif.Defs
