import Verif.Model.Traf

/-!
# C28: what it means for a fragment to be in range
-/

namespace Verif.Traf

/-- The four numbers of a sample fit 32 bits. -/
structure EntryFits (e : Entry) : Prop where
  duration : e.duration < 2 ^ 32
  size : e.size < 2 ^ 32
  flags : e.flags < 2 ^ 32
  offset : e.offset < 2 ^ 32

/-- A run with at least one sample. -/
structure RunFits (r : Run) : Prop where
  version : r.version < 2 ^ 8
  place : r.dataOffset < 2 ^ 32
  some : r.entries ≠ []
  entries : ∀ e ∈ r.entries, EntryFits e

structure Fits (t : Traf) : Prop where
  version : t.tfhd.version < 2 ^ 8
  track : t.tfhd.trackId < 2 ^ 32
  base : t.tfhd.base < 2 ^ 64
  index : t.tfhd.descIndex < 2 ^ 32
  time : ∀ d, t.tfdt = some d → d.flags < 2 ^ 24 ∧
    (d.version = 0 ∧ d.time < 2 ^ 32 ∨ d.version = 1 ∧ d.time < 2 ^ 64)
  some : t.runs ≠ []
  runs : ∀ r ∈ t.runs, RunFits r
  /-- With every field present the box is smaller than 4 GB. -/
  small : 68 + (t.runs.map fun r => 24 + 16 * r.entries.length).sum < 2 ^ 32

/-- Where the samples of each run are, and the samples, of a fragment before it is written. -/
def content (t : Traf) : List (Nat × List Entry) :=
  t.runs.map fun r => (((t.tfhd.base + s32 r.dataOffset) % 2 ^ 64).toNat, r.entries)

end Verif.Traf
