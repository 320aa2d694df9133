import Verif.Model.Subs

/-!
# Sub-sample information of a track

MovieTracks.c 144-351. The track has media information with a sample table. Of the list of boxes in the sample table, those of
sub-sample information are kept, in order; the boxes in between are of other types and are not touched. A box is named by its place in
this list, which stands for the pointer that the caller has: boxes are added at the end and none is taken away. Allocation does not fail,
and `malloc(0)` is not NULL. Handles hold arrays of 32 bit numbers.
-/

namespace Verif.Subs

abbrev Track := List Box

/-- `MP4AddSubSampleInformationToTrack`: MovieTracks.c 144-190; the second value is the box that is returned. -/
def newBox (t : Track) : Track × Nat := (t ++ [empty], t.length)

/-- Work on the box of a pointer. -/
def onBox (t : Track) (k : Nat) (f : Box → Res Box) : Res Track :=
  match t[k]? with
  | none => .ub
  | some b => (f b).bind fun b => .ok (t.set k b)

/-- `MP4SetSubSampleInformationFlags`: MovieTracks.c 192-205. -/
def setFlags (t : Track) (k flags : Nat) : Res Track := onBox t k fun b => .ok { b with flags := flags }

/-- `MP4AddSubSampleInformationEntry`: MovieTracks.c 306-327. -/
def addTo (t : Track) (k delta count : Nat) (sizes priorities discardables : List Nat) : Res Track :=
  onBox t k fun b => addEntry b delta count sizes priorities discardables

/-- `MP4AddSubSampleInformationEntry2`: MovieTracks.c 329-351. -/
def addTo2 (t : Track) (k delta count : Nat) (sizes priorities discardables parameters : List Nat) : Res Track :=
  onBox t k fun b => addEntry2 b delta count sizes priorities discardables parameters

/-- What is returned for an entry; the pointers to the arrays are not set if there are no sub-samples. -/
structure Row where
  delta : Nat
  count : Nat
  arrays : Option (List Nat × List Nat × List Nat)
  deriving DecidableEq, Repr

/-- One round of the loop: MovieTracks.c 277-298. -/
def rowOf (e : Entry) : Row where
  delta := e.delta
  count := e.subs.length
  arrays := if e.subs.length = 0 then none else some (e.subs.map Sub.size, e.subs.map Sub.priority, e.subs.map Sub.discardable)

/-- `MP4GetSubSampleInformationEntryFromTrack`: MovieTracks.c 207-304. The search ends at the first box. -/
def getInfo : Track → Res (Nat × List Row)
  | [] => .err .notFound
  | b :: _ => .ok (b.flags, b.entries.map rowOf)

/-- The boxes of the sample table are written in the order of its list. -/
def writeAll : Track → Res (List Bytes)
  | [] => .ok []
  | b :: t => do
    let x ← runW (size b) (serialize b)
    let l ← writeAll t
    .ok (x :: l)

/-- And read in the order of the file: SampleTableAtom.c 93-98. -/
def readAll : List Bytes → Res Track
  | [] => .ok []
  | x :: l => do
    let r ← parseAtom parse x
    let t ← readAll l
    .ok (r.1 :: t)

end Verif.Subs
