import Verif.Model.Traf
import Verif.Model.Stts
import Verif.Model.Ctts
import Verif.Model.Stss
import Verif.Model.Padb
import Verif.Model.Stsz
import Verif.Model.Stco
import Verif.Model.Stsc
import Verif.Model.Sdtp

/-!
# Adding the samples of track fragments to the sample table of the track

`mergeFragments` (MovieFragmentAtom.c 74-208), `mergeRuns` (TrackFragmentAtom.c 470-605),
`addSampleReference` (MediaInformationAtom.c 380-435), `addSamples` (SampleTableAtom.c 255-430), and the
query `MP4GetIndMediaSampleWithPad` (MP4Media.c 1725-1887) without its copy of the data.

Simplifications: no sample groups and no auxiliary information in the track or the fragment; unsigned
composition offsets (`useSignedCompositionTimeOffsets` is 0, its value in a movie that was opened); the
edit list is not part of the state; data references have no media data attached (true while a movie is
opened: MP4Movies.c 206-211 merges the fragments before `mdatArrived`).
-/

namespace Verif.Merge

open Traf (Entry Run Tfhd has)

/-- The sample table of a track: MP4Atoms.h 718-783. -/
structure Table where
  stts : Stts.Stts
  ctts : Option Ctts.Ctts
  stss : Option Stss.Stss
  padb : Option Padb.Padb
  stsz : Stsz.Stsz
  stco : Stco.Stco
  stsc : Stsc.Stsc
  sdtp : Option Sdtp.Sdtp
  /-- Data reference index of each sample description. -/
  stsd : List Nat
  /-- `currentSampleEntry`, by its data reference index. -/
  current : Option Nat
  /-- Number of data references. -/
  drefs : Nat

/-- What `realloc` leaves in new memory, for the tables that grow by it. -/
structure Junk where
  sizes : Nat → Nat
  offsets : Nat → Nat
  sync : Nat → Nat
  deps : Nat → UInt8

/-- A track without samples as it is after opening a movie: `createFromInputStream` of the four
mandatory tables, each with 0 entries. The size table has memory for one size (SampleSizeAtom.c 297-300). -/
def opened (stsd : List Nat) (drefs : Nat) : Table :=
  ⟨Stts.ofEntries [], none, none, none, ⟨0, 0, 32, 4, some [0]⟩, ⟨0, 0, []⟩, Stsc.ofEntries [], none, stsd,
    none, drefs⟩

/-- A step that may fail after having changed the table. -/
abbrev Step := Table → Res (Table × Option Err)

/-- One step after the other, the second only if the first did not fail (`if(err) goto bail`). -/
def Step.andThen (a b : Step) : Step := fun m =>
  (a m).bind fun r => match r.2 with
    | none => b r.1
    | some e => .ok (r.1, some e)

infixr:60 " >> " => Step.andThen

/-- A step that changes nothing when it fails. -/
def Step.of (f : Table → Res Table) : Step := fun m =>
  match f m with
  | .ok m' => .ok (m', none)
  | .err e => .ok (m, some e)
  | .ub => .ub

/-- `addSamples`: SampleTableAtom.c 297-424, in that order. -/
def tableAdd (j : Junk) (count offset : Nat) (durations sizes : List Nat) (offs sync pads : Option (List Nat)) :
    Step :=
  Step.of (fun m => (Stts.addSamples m.stts.entries count durations).bind fun es =>
    .ok { m with stts := { m.stts with entries := es } }) >>
  Step.of (fun m => (Ctts.tableAdd ⟨m.stsz.count, m.ctts⟩ count offs).bind fun s => .ok { m with ctts := s.ctts }) >>
  Step.of (fun m => (Stss.tableAdd j.sync ⟨m.stsz.count, m.stss⟩ count sync).bind fun s =>
    .ok { m with stss := s.stss }) >>
  Step.of (fun m => if m.stsd.length = 0 then .err .invalidMedia else .ok m) >>
  Step.of (fun m => (Padb.tableAdd ⟨m.stsz.count, m.padb⟩ count pads).bind fun s => .ok { m with padb := s.padb }) >>
  Step.of (fun m => (Stsz.addSamples j.sizes m.stsz count sizes).bind fun t => .ok { m with stsz := t }) >>
  Step.of (fun m => (Stco.addOffset j.offsets m.stco offset).bind fun t => .ok { m with stco := t }) >>
  Step.of (fun m => .ok { m with stsc := { m.stsc with
    entries := Stsc.setEntry m.stsc.entries m.stco.count count m.stsd.length } }) >>
  Step.of (fun m => (Sdtp.tableAdd j.deps ⟨m.stsz.count, m.sdtp⟩ count).bind fun s => .ok { m with sdtp := s.sdtp })

/-- `addSampleReference`: MediaInformationAtom.c 424-430, without a sample entry;
DataInformationAtom.c 64-80, DataReferenceAtom.c 90-107, DataEntryURLAtom.c 63-75. The data reference is
checked last. -/
def addReference (j : Junk) (count offset : Nat) (durations sizes : List Nat) (offs sync pads : Option (List Nat)) :
    Step := fun m =>
  match m.current with
  | none => .ok (m, some .invalidMedia)
  | some dref => (tableAdd j count offset durations sizes offs sync pads >>
      Step.of fun m => if dref = 0 ∨ count = 0 ∨ dref > m.drefs then .err .badParam else .ok m) m

/-- `setDefaultSampleEntry`: SampleTableAtom.c 188-202, SampleDescriptionAtom.c 108-122. -/
def setDefault (index : Nat) (m : Table) : Table :=
  if index = 0 ∨ index > m.stsd.length then m else { m with current := m.stsd[index - 1]? }

/-- The bit that marks a sample as not being a sync sample (MP4Atoms.h 1404). -/
def notSync (flags : Nat) : Bool := has flags 0x10000

/-- Numbers of the sync samples of a run, from 1: TrackFragmentAtom.c 570-573. -/
def syncNumbers (es : List Entry) : List Nat :=
  (List.range es.length).filterMap fun i =>
    match es[i]? with
    | some e => if notSync e.flags then none else some (i + 1)
    | none => none

def padOf (flags : Nat) : Nat := (flags >>> 17) &&& 7
def depOf (flags : Nat) : Nat := (flags >>> 20) &&& 0x3F

/-- `setSampleDependency`: TrackFragmentAtom.c 586-590, SampleTableAtom.c 746-781. -/
def setDependency (j : Junk) (index : Int) (deps : Bytes) : Step := fun m =>
  (Sdtp.tableSet j.deps ⟨m.stsz.count, m.sdtp⟩ index deps).bind fun r => .ok ({ m with sdtp := r.1.sdtp }, r.2)

/-- One run: TrackFragmentAtom.c 539-590. -/
def mergeRun (j : Junk) (h : Tfhd) (r : Run) : Step := fun m =>
  match Traf.mergeRun h r with
  | .ub => .ub
  | .err e => .ok (m, some e)
  | .ok (place, es) =>
    (addReference j es.length place (es.map Entry.duration) (es.map Entry.size)
        (if has r.flags 0x800 then some (es.map Entry.offset) else none)
        (if es.any fun e => notSync e.flags then some (syncNumbers es) else none)
        (if es.any fun e => padOf e.flags ≠ 0 then some (es.map fun e => padOf e.flags) else none) >>
      if es.any fun e => depOf e.flags ≠ 0 then
        setDependency j (-(es.length : Int)) (es.map fun e => UInt8.ofNat (depOf e.flags))
      else Step.of .ok) (setDefault h.descIndex m)

/-- `mergeRuns`: TrackFragmentAtom.c 470-605. `j` for each run. -/
def mergeRuns (h : Tfhd) : List (Junk × Run) → Step
  | [] => Step.of .ok
  | r :: rs => mergeRun r.1 h r.2 >> mergeRuns h rs

/-- The sample duration is extended so that the fragment starts at its decode time:
MovieFragmentAtom.c 157-171. -/
def startAt (time : Nat) : Step := fun m =>
  if time < Stts.totalDuration m.stts.entries then .ok (m, some .invalidMedia)
  else if time > Stts.totalDuration m.stts.entries then
    (Stts.extendLast m.stts.entries ((time - Stts.totalDuration m.stts.entries) % 4294967296)).bind fun es =>
      .ok ({ m with stts := { m.stts with entries := es } }, none)
  else .ok (m, none)

/-- A fragment of the track whose header has its defaults filled in (`Traf.fill`). -/
structure Frag where
  tfhd : Tfhd
  time : Option Nat
  runs : List (Junk × Run)

/-- The part of `mergeFragments` for one track fragment that changes the sample table:
MovieFragmentAtom.c 157-190. What `mergeRuns` returns is overwritten by the next assignment (190). -/
def mergeFragment (f : Frag) : Step :=
  (match f.time with
    | none => Step.of .ok
    | some t => startAt t) >> fun m =>
  if has f.tfhd.flags 0x10000 then .ok (m, none)
  else (mergeRuns f.tfhd f.runs m).bind fun r => .ok (r.1, none)

/-- The fragments of a track: MP4Movies.c 250-268. -/
def mergeAll : List Frag → Step
  | [] => Step.of .ok
  | f :: fs => mergeFragment f >> mergeAll fs

/-- What is reported about a sample. -/
structure Info where
  place : Nat
  size : Nat
  dts : Nat
  offset : Nat
  duration : Nat
  sync : Bool
  pad : Nat
  dep : UInt8
  desc : Nat
  deriving DecidableEq, Repr

/-- `MP4GetIndMediaSampleWithPad`: MP4Media.c 1791-1885, and `MP4GetSampleDependency` (SampleTableAtom.c
783-804). `*outDuration` is a `u64` assigned from an `s32`. -/
def info (m : Table) (n : Nat) : Res Info :=
  (Stsc.lookup m.stsc n).bind fun r =>
  match r.1.firstSample with
  | none => .ub
  | some first =>
    (Stsz.getSampleSizeAndOffset m.stsz n first).bind fun so =>
    (Padb.samplePad ⟨m.stsz.count, m.padb⟩ n).bind fun pad =>
    (Stco.getChunkOffset m.stco r.1.chunk).bind fun off =>
    match m.stsd[r.1.desc - 1]? with
    | none => .err .badParam
    | some _ =>
      if r.1.desc = 0 then .err .badParam else
      (Stss.isSync ⟨m.stsz.count, m.stss⟩ n).bind fun sync =>
      (Sdtp.tableGet ⟨m.stsz.count, m.sdtp⟩ n).bind fun dep =>
      .ok ⟨w64(off + so.2), so.1, (Stts.getTime m.stts n).1.1, Ctts.offsetOf ⟨m.stsz.count, m.ctts⟩ n,
        u64i (s32 (Stts.getTime m.stts n).1.2), sync, pad, dep, r.1.desc⟩

end Verif.Merge
