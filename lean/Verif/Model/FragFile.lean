import Verif.Model.Traf
import Verif.Model.FragSeq
import Verif.Model.Movie

/-!
# Movie fragments in a file

Adding samples to a fragment (TrackFragmentAtom.c `addSamples`), starting a fragment and writing it
(MP4MovieFile.c, MovieExtendsAtom.c `maketrackfragments`), the movie fragment box
(MovieFragmentAtom.c), and where the data of the runs is when a file is read (`mergeFragments`,
`calculateDataEnd`).

Simplifications: no sample groups, auxiliary information or metadata boxes; samples are added with
their data (not by reference). A track is known by its place in the list of `trex` boxes.
-/

namespace Verif.FragFile

open Traf (Entry Run Tfhd Tfdt Trex RTraf has)
open Movie (mapRes)

/-! ## Adding samples -/

/-- The arguments of `addSamples`. `pads` are the bytes in the handle `padsH`, `padsCell` the memory
that `padsH` itself points to. -/
structure Samples where
  data : Bytes
  count : Nat
  durations : List Nat
  sizes : List Nat
  offsets : Option (List Nat)
  syncs : Option (List Nat)
  pads : Option Bytes
  padsCell : Bytes
  deriving DecidableEq, Repr

/-- `i >= count ? l[0] : l[i]`. -/
def pick (l : List Nat) (i : Nat) : Res Nat :=
  match (if i ≥ l.length then l[0]? else l[i]?) with
  | some v => .ok v
  | none => .ub

/-- `padsH == NULL ? 0 : ((u8 *)padsH)[i] << 17`: line 197. The cast is of the handle, not of what it
points to. -/
def padFlags (s : Samples) (i : Nat) : Res Nat :=
  match s.pads with
  | none => .ok 0
  | some _ => match s.padsCell[i]? with
    | some b => .ok (b.toNat <<< 17)
    | none => .ub

/-- `decodingOffsetsH == NULL ? 0 : decodes[i]`: line 199. -/
def offsetAt (s : Samples) (i : Nat) : Res Nat :=
  match s.offsets with
  | none => .ok 0
  | some l => match l[i]? with
    | some v => .ok v
    | none => .ub

/-- One pass of the loop: TrackFragmentAtom.c 190-200. -/
def entryAt (s : Samples) (i : Nat) : Res Entry :=
  (pick s.durations i).bind fun d =>
  (pick s.sizes i).bind fun z =>
  (padFlags s i).bind fun p =>
  (offsetAt s i).bind fun o =>
  .ok ⟨d, z, p + (if s.syncs.isSome then 0x10000 else 0), o⟩

/-- `entry[syncs[i] - 1].sample_flags ^= fragment_difference_sample_flag`: lines 204-213. -/
def toggle : List Nat → List Entry → Res (List Entry)
  | [], es => .ok es
  | k :: ks, es =>
    match es[pred32 k]? with
    | none => .ub
    | some e => toggle ks (es.set (pred32 k) { e with flags := e.flags ^^^ 0x10000 })

/-- The entries of the new run. -/
def entriesOf (s : Samples) : Res (List Entry) :=
  (mapRes (entryAt s) (List.range s.count)).bind fun es =>
  match s.syncs with
  | none => .ok es
  | some l => toggle l es

/-- A track of the movie: the `trex` box, which also holds the decode time that is reached (`u32`). -/
structure Track where
  trex : Trex
  id : Nat
  time : Nat
  deriving DecidableEq, Repr

/-- A movie with a fragment being made: what is written so far (`prepend_handle`), the tracks, the
number of the fragment, its track fragments and its media data. -/
structure St where
  pre : Bytes
  tracks : List Track
  seq : Nat
  trafs : List Traf.Traf
  mdat : Mdat.T
  deriving DecidableEq, Repr

/-- `addSamples`: TrackFragmentAtom.c 132-226. `junk` is for growing the media data. The result of
`mdat->addData` is not looked at; the model passes an error on. Simplification: composition offsets
are unsigned (`version` 0). -/
def addSamples (junk : Nat → UInt8) (st : St) (i : Nat) (s : Samples) : Res St :=
  match st.trafs[i]?, st.tracks[i]? with
  | some traf, some track =>
    (Mdat.addData junk st.mdat s.data).bind fun mdat =>
    (entriesOf s).bind fun es =>
    .ok { st with
      mdat := mdat
      trafs := st.trafs.set i { traf with runs := traf.runs ++ [⟨0, 0, w32(st.mdat.dataSize), 0, es⟩] }
      tracks := st.tracks.set i { track with time := es.foldl (fun t e => w32(t + e.duration)) track.time } }
  | _, _ => .err .badParam

/-- `ISOAddDelayToTrackFragmentDecodeTime`: MP4MovieFile.c 424-460. -/
def addDelay (st : St) (d : Nat) : St :=
  { st with
    tracks := st.tracks.map fun t => { t with time := w32(t.time + d) }
    trafs := st.trafs.map fun t =>
      { t with tfdt := match t.tfdt with | some x => some { x with time := w64(x.time + d) } | none => none } }

/-! ## Writing -/

def typeMoof : Nat := 0x6d6f6f66

/-- `maketrackfragments`: MovieExtendsAtom.c 167-236. -/
def makeTrafs (ts : List Track) : List Traf.Traf :=
  ts.map fun t => ⟨t.trex, ⟨0, 0, t.id, 0, t.trex.descIndex, 0, 0, 0⟩, some ⟨0, 0, t.time⟩, []⟩

/-- `mdatMoved`: TrackFragmentAtom.c 88-109; `samples_use_mdat` is 1 once samples were added. -/
def moveBase (b : Nat) (t : Traf.Traf) : Traf.Traf :=
  if t.runs = [] then t else { t with tfhd := { t.tfhd with base := b } }

/-- `serialize`: MovieFragmentAtom.c 207-224. -/
def moofSer (n seq : Nat) (ts : List (Nat × Traf.Traf)) : W :=
  serBase n typeMoof ;; nested 16 (FragSeq.mfhdSerialize ⟨0, 0, seq⟩) ;;
  W.each (fun t => nested t.1 (Traf.ser t.1 t.2)) ts ;; W.assertFull

/-- The fragment box in `LocalPutMovieIntoHandle`: sizes (MovieFragmentAtom.c 226-240), the move of the
media data, and writing. -/
def putMoof (pre seq : Nat) (trafs : List Traf.Traf) (mdatSize : Nat) : Res Bytes :=
  (mapRes Traf.prepare trafs).bind fun ts =>
  (mapRes Traf.size ts).bind fun ns =>
  runW w32(24 + ns.sum) (moofSer w32(24 + ns.sum) seq
    (ns.zip (ts.map (moveBase (u64i (s32 (Movie.moveUp pre w32(24 + ns.sum) mdatSize)))))))

/-- `LocalPutMovieIntoHandle(theMovie, NULL, 1)` for a fragment: MP4MovieFile.c 33-272. -/
def put (st : St) : Res Bytes :=
  if (Mdat.calcSize st.mdat.dataSize 0).1 = 1 then .err .notImplemented else
  (putMoof st.pre.length st.seq st.trafs (Mdat.calcSize st.mdat.dataSize 0).1).bind fun moof =>
  (Mdat.serialize st.mdat 0).bind fun bs => .ok (st.pre ++ (moof ++ bs))

/-- `ISOStartMovieFragment` when a fragment is being made: MP4MovieFile.c 341-422. -/
def start (st : St) : Res St :=
  (put st).bind fun bs => .ok ⟨bs, st.tracks, w32(st.seq + 1), makeTrafs st.tracks, Mdat.create⟩

/-- `MP4WriteMovieToFile`: MP4MovieFile.c 281-339. -/
def finish (st : St) : Res Bytes :=
  (putMoof st.pre.length st.seq st.trafs (Mdat.calcSize st.mdat.dataSize 0).1).bind fun moof =>
  (Mdat.writeToFile st.mdat 0).bind fun bs => .ok (st.pre ++ (moof ++ bs))

/-- What is done with a movie while a fragment is being made. -/
inductive Op where
  | add (track : Nat) (s : Samples)
  | delay (d : Nat)
  deriving DecidableEq, Repr

def step (junk : Nat → UInt8) (st : St) : Op → Res St
  | .add i s => addSamples junk st i s
  | .delay d => .ok (addDelay st d)

def steps (junk : Nat → UInt8) : St → List Op → Res St
  | st, [] => .ok st
  | st, o :: os => (step junk st o).bind fun st => steps junk st os

/-- One fragment after the other; the last one is written to the file. -/
def build (junk : Nat → UInt8) : St → List Op → List (List Op) → Res Bytes
  | st, f, [] => (steps junk st f).bind finish
  | st, f, g :: gs => (steps junk st f).bind fun st => (start st).bind fun st => build junk st g gs

/-! ## Reading -/

/-- A movie fragment box that was read; anything that is not a header is in `atomList`, and
`mergeFragments` takes it for a track fragment. -/
structure RMoof where
  mfhd : Option FragSeq.Mfhd
  trafs : List (Option RTraf)
  deriving DecidableEq, Repr

inductive Member where
  | mfhd (h : FragSeq.Mfhd)
  | traf (t : RTraf)
  | other

/-- The class of a member: MP4Atoms.c 456-482; other boxes are skipped over. -/
def memberParse (h : Hdr) : P Member :=
  if h.type = FragSeq.typeMfhd then Member.mfhd <$> FragSeq.mfhdParse h
  else if h.type = Traf.typeTraf then Member.traf <$> Traf.parse h
  else do
    let r ← P.bytesRead
    let _ ← getBytes w32(h.size + (4294967296 - r))
    pure .other

/-- `addAtom`: MovieFragmentAtom.c 255-276. -/
def addAtom (m : RMoof) : Member → RMoof
  | .mfhd h => { m with mfhd := some h }
  | .traf t => { m with trafs := m.trafs ++ [some t] }
  | .other => { m with trafs := m.trafs ++ [none] }

/-- The loop of `PARSE_ATOM_INCLUDES`: MP4Impl.h 605-621. -/
def members : Nat → Nat → RMoof → P RMoof
  | 0, _, _ => P.bad
  | n + 1, size, t => fun s =>
    if s.read < size then
      match parseAtom memberParse s.rest with
      | .ok (c, h, r) => members n size (addAtom t c) ⟨r, w32(s.read + h.size)⟩
      | .err e => .err e
      | .ub => .ub
    else .ok (t, s)

/-- `createFromInputStream`: MovieFragmentAtom.c 278-285. -/
def parse (h : Hdr) : P RMoof := fun s =>
  (members (s.rest.length + 1) h.size ⟨none, []⟩ s).bind fun (t, s') =>
    if s'.read ≠ h.size then .err .badData else .ok (t, s')

/-- Sizes of the samples of a run, all `u32`: TrackFragmentAtom.c 792-801. -/
def runTotal (h : Tfhd) (r : Run) (total : Nat) : Nat :=
  if has r.flags 0x200 then r.entries.foldl (fun n e => w32(n + e.size)) total
  else w32(total + w32(h.size * r.entries.length))

/-- The loop of `calculateDataEnd`: TrackFragmentAtom.c 776-805. -/
def endLoop (h : Tfhd) : List Run → Nat → Nat → Nat
  | [], _, stop => stop
  | r :: rs, total, stop =>
    endLoop h rs (runTotal h r total)
      w32((if has r.flags 1 then w32(Traf.place h r) else stop) + runTotal h r total)

/-- `calculateDataEnd`: TrackFragmentAtom.c 757-814. -/
def dataEnd (h : Tfhd) (rs : List Run) : Nat := endLoop h rs 0 w32(h.base)

/-- What `mergeFragments` takes from a track fragment: track, decode time, and the runs with the places
of their data. -/
structure Found where
  track : Nat
  time : Option Nat
  runs : List (Nat × List Entry)
  deriving DecidableEq, Repr

/-- The loop of `mergeFragments`: MovieFragmentAtom.c 89-135 and 174-188. `trex` are the defaults of a track;
without them `trex` is an uninitialized pointer. `moof` is the place of the fragment box in the file,
`base` is `base_offset`. With the flag for an empty duration the runs are not looked at (an edit is made
instead, which is not modelled). -/
def gather (trex : Nat → Option Trex) (moof : Nat) : List (Option RTraf) → Nat → Res (List Found)
  | [], _ => .ok []
  | none :: _, _ => .ub
  | some t :: ts, base =>
    match t.tfhd with
    | none => .ub
    | some h =>
      if h.trackId = 0 then .err .badParam else
      match trex h.trackId with
      | none => .ub
      | some x =>
        (if has h.flags 0x10000 then .ok [] else Traf.mergeRuns (Traf.fill x moof base h) t.runs).bind fun rs =>
        (gather trex moof ts (dataEnd (Traf.fill x moof base h) t.runs)).bind fun fs =>
        .ok (⟨h.trackId, t.tfdt.map Tfdt.time, rs⟩ :: fs)

/-- Reading the fragment box that begins at `moof` in the file: its header, its size and what
`mergeFragments` takes from it. -/
def openAt (trex : Nat → Option Trex) (file : Bytes) (moof : Nat) :
    Res (Option FragSeq.Mfhd × Nat × List Found) :=
  match parseAtom parse (file.drop moof) with
  | .ok (m, hd, _) => (gather trex moof m.trafs moof).bind fun fs => .ok (m.mfhd, hd.size, fs)
  | .err e => .err e
  | .ub => .ub

end Verif.FragFile
