import Verif.Model.Sgpd
import Verif.Model.Sbgp

/-!
# Sample groups of all types in a sample table and in track fragments, and merging them

SampleTableAtom.c 56-85, 408-420, 527-744, TrackFragmentAtom.c 111-133, 316-352, 604-671, 850-914, MovieFragmentAtom.c
141-152, and the parts of MediaAtom.c 317-435 and MP4Media.c 164-321 that add to them.

Boxes are those of Model/Sgpd and Model/Sbgp. The lists `groupDescriptionList` and `sampletoGroupList` have the grouping
type of a box beside it. New memory of every box holds the same arbitrary values `junk`. A call that fails may have changed
the state, so that the state comes with the error.
-/

namespace Verif.Grps

open Verif.Sbgp (Sbgp)

/-- The members of `MP4SampleTableAtom` and of `MP4TrackFragmentAtom` that are about groups; `count` is the sample count of
the sample sizes, or the sum over the runs. `strays` are boxes of type 0, which are only in `atomList`. -/
structure Tab where
  descs : List (Nat × List Bytes)
  maps : List (Nat × Sbgp)
  count : Nat
  strays : List (Nat × Sbgp)
  deriving DecidableEq, Repr

/-- `MP4FindGroupAtom`: SampleTableAtom.c 56-85. -/
def find {β : Type} (type : Nat) : List (Nat × β) → Option β
  | [] => none
  | p :: l => if p.1 = type then some p.2 else find type l

/-- The box that was found has changed. -/
def put {β : Type} (type : Nat) (b : β) : List (Nat × β) → List (Nat × β)
  | [] => []
  | p :: l => if p.1 = type then (p.1, b) :: l else p :: put type b l

/-- `addGroupDescription`: SampleTableAtom.c 527-549, TrackFragmentAtom.c 316-337; the index. -/
def addDesc (t : Tab) (type : Nat) (d : Bytes) : Tab × Res Nat :=
  let descs := match find type t.descs with
    | some _ => t.descs
    | none => t.descs ++ [(type, [])]
  match Sgpd.add ((find type descs).getD []) d with
  | .ok (gs, i) => ({ t with descs := put type gs descs }, .ok i)
  | .err e => ({ t with descs := descs }, .err e)
  | .ub => ({ t with descs := descs }, .ub)

/-- `addGroupDescription` of the media in a fragment: MediaAtom.c 317-340. -/
def addLocal (t : Tab) (type : Nat) (d : Bytes) : Tab × Res Nat :=
  match addDesc t type d with
  | (t, .ok i) => (t, .ok (w32(i + 0x10000)))
  | r => r

/-- `getGroupDescription`: SampleTableAtom.c 551-566, TrackFragmentAtom.c 339-352. -/
def getDesc (t : Tab) (type index : Nat) : Res Bytes :=
  match find type t.descs with
  | none => .err .badParam
  | some gs => Sgpd.get gs index

/-- `ISOGetGroupDescriptionEntryCount`: MP4Media.c 202-239. -/
def descCount (t : Tab) (type : Nat) : Res Nat :=
  match find type t.descs with
  | none => .err .notFound
  | some gs => .ok gs.length

/-- The loop over the mappings: SampleTableAtom.c 408-420, TrackFragmentAtom.c 116-128. -/
def growAll (junk : Nat → Nat) (n : Nat) : List (Nat × Sbgp) → Res (List (Nat × Sbgp))
  | [] => .ok []
  | p :: l => do
    let s ← Sbgp.addSamples junk p.2 n
    let r ← growAll junk n l
    .ok ((p.1, s) :: r)

/-- The part of `addSamples` about groups. -/
def addSamples (junk : Nat → Nat) (t : Tab) (n : Nat) : Res Tab := do
  let m ← growAll junk n t.maps
  .ok { t with maps := m, count := w32(t.count + n) }

/-- A new mapping: SampleTableAtom.c 664-667, TrackFragmentAtom.c 864-874. -/
def fresh (junk : Nat → Nat) (frag : Bool) (count : Nat) : Res Sbgp :=
  if frag ∧ count = 0 then .ok (Sbgp.create true) else Sbgp.addSamples junk (Sbgp.create frag) count

/-- The mapping of a type, made if there is none, and the mapping of the samples: SampleTableAtom.c 660-683,
TrackFragmentAtom.c 860-888. `auto` is for `SAMPLE_GROUP_AUTO`: then the new box has type 0 and `addAtom` (SampleTableAtom.c
93-142, TrackFragmentAtom.c 51-87) does not put it into the list. -/
def mapIn (junk : Nat → Nat) (frag auto : Bool) (t : Tab) (type group : Nat) (index : Int) (n : Nat) : Res (Tab × Option Err) :=
  match find type t.maps with
  | some s =>
    match Sbgp.mapSamples s group index n with
    | .ok s => .ok ({ t with maps := put type s t.maps }, none)
    | .err e => .ok (t, some e)
    | .ub => .ub
  | none => do
    let s ← fresh junk frag t.count
    let keep := fun s : Sbgp =>
      if auto then (if frag then t else { t with strays := t.strays ++ [(type, s)] })
      else { t with maps := t.maps ++ [(type, s)] }
    match Sbgp.mapSamples s group index n with
    | .ok s => .ok (keep s, none)
    | .err e => .ok (keep s, some e)
    | .ub => .ub

/-- `mapSamplestoGroup` of a sample table: SampleTableAtom.c 648-687. -/
def map (junk : Nat → Nat) (auto : Bool) (t : Tab) (type group : Nat) (index : Int) (n : Nat) : Res (Tab × Option Err) :=
  match find type t.descs with
  | none => .ok (t, some .badParam)
  | some gs => if group > gs.length then .ok (t, some .badParam) else mapIn junk false auto t type group index n

/-- `getSampleGroupMap`: SampleTableAtom.c 689-708, TrackFragmentAtom.c 895-914. -/
def getMap (t : Tab) (type n : Nat) : Res Nat :=
  match find type t.maps with
  | none => .err .badParam
  | some s => Sbgp.getMap s n

/-! ## Merging -/

/-- One turn of the loops of `mergeSampleGroupDescriptions`, SampleTableAtom.c 588-615; `there` tells whether the type was
there before. -/
def mergeDesc (there : Bool) (type : Nat) (t : Tab) (d : Bytes) : Tab :=
  if there then
    match Sgpd.find ((find type t.descs).getD []) d with
    | .err .notFound => (addDesc t type d).1
    | _ => t
  else (addDesc t type d).1

/-- `mergeSampleGroupDescriptions`: SampleTableAtom.c 568-619. The error of the last description is the result; the caller
overwrites it. -/
def mergeDescs (t : Tab) (p : Nat × List Bytes) : Tab :=
  p.2.foldl (mergeDesc (find p.1 t.descs).isSome p.1) t

/-- `position`, TrackFragmentAtom.c 626. -/
def position (j total : Nat) : Int := s32 w32(j + (4294967296 - total))

/-- The loop body for one sample: TrackFragmentAtom.c 627-666. A type that is not in the table is a NULL pointer. -/
def mergeCell (junk : Nat → Nat) (f : Tab) (total type g j : Nat) (t : Tab) : Res (Tab × Option Err) :=
  if g < 0x10000 then map junk false t type g (position j total) 1
  else if g ≠ 0x10000 then
    match getDesc f type (g - 0x10000) with
    | .ub => .ub
    | .err e => .ok (t, some e)
    | .ok d =>
      match find type t.descs with
      | none => .ub
      | some gs =>
        match Sgpd.find gs d with
        | .ub => .ub
        | .err e => .ok (t, some e)
        | .ok i => map junk false t type i (position j total) 1
  else .ok (t, none)

/-- The loop over the samples of a mapping, from sample `j` on, for `k` of them: TrackFragmentAtom.c 622-668. -/
def mergeCells (junk : Nat → Nat) (f : Tab) (total type : Nat) (s : Sbgp) : Nat → Nat → Tab → Res (Tab × Option Err)
  | 0, _, t => .ok (t, none)
  | k + 1, j, t => do
    let g ← Mem.get s.cells j
    match ← mergeCell junk f total type g j t with
    | (t, none) => mergeCells junk f total type s k (j + 1) t
    | r => .ok r

/-- The loop over the mappings: TrackFragmentAtom.c 614-670. -/
def mergeMaps (junk : Nat → Nat) (f : Tab) (total : Nat) : List (Nat × Sbgp) → Tab → Res (Tab × Option Err)
  | [], t => .ok (t, none)
  | p :: l, t => do
    match ← mergeCells junk f total p.1 p.2 p.2.count 0 t with
    | (t, none) => mergeMaps junk f total l t
    | r => .ok r

def addRuns (junk : Nat → Nat) : List Nat → Tab → Res Tab
  | [], t => .ok t
  | n :: l, t => do
    let t ← addSamples junk t n
    addRuns junk l t

/-- What a fragment with these runs does to the groups: MovieFragmentAtom.c 141-152, then `mergeRuns`, TrackFragmentAtom.c
484-605 (which adds the samples of each run) and 607-671. The error of it is overwritten too (MovieFragmentAtom.c 187). -/
def merge (junk : Nat → Nat) (t : Tab) (f : Tab × List Nat) : Res (Tab × Option Err) := do
  let t ← addRuns junk f.2 (f.1.descs.foldl mergeDescs t)
  mergeMaps junk f.1 w32(f.2.foldl (· + ·) 0) f.1.maps t

end Verif.Grps
