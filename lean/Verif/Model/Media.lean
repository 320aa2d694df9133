import Verif.Model.Stts
import Verif.Model.Stsz
import Verif.Model.Stsc
import Verif.Model.Stco
import Verif.Model.Mdat

/-!
# Adding samples to a media and reading them back by number

`MP4AddMediaSamples` (MP4Media.c 141-160, MediaAtom.c 260-297, MediaInformationAtom.c 472-530,
SampleTableAtom.c 255-430, DataInformationAtom.c 47-98, DataReferenceAtom.c 72-126,
DataEntryURLAtom.c 44-102) and `MP4GetIndMediaSampleWithPad` (MP4Media.c 1725-1887).

Simplifications: the composition offset, sync sample and padding handles are `NULL` and no sample
groups or dependency table exist (those tables are modelled on their own and do not touch the
fields below); of a sample description only its data reference index is kept; all data references
are self-contained, so they share one media data box; `setDefaultSampleEntry` is not used, so the
current description is the last one added; the object descriptor special case of `MediaAtom.c` is
left out.
-/

namespace Verif.Media

/-- The parts of a media that addition and reading use. -/
structure Media where
  stts : Stts.Stts
  stsz : Stsz.Stsz
  stsc : Stsc.Stsc
  stco : Stco.Stco
  /-- Data reference index of each sample description. -/
  stsd : List Nat
  /-- Number of (self-contained) data references. -/
  drefs : Nat
  mdat : Mdat.T

/-- A new media with one data reference: MovieTracks.c `MP4NewTrackMedia`, with empty tables
(SampleTableAtom.c `setupNew`). -/
def create (drefs : Nat) : Media :=
  ⟨Stts.create, Stsz.create, Stsc.ofEntries [], Stco.create, [], drefs, Mdat.create⟩

/-- `setSampleEntry`: SampleTableAtom.c 163-181, when a description is given. -/
def setEntry (m : Media) : Option Nat → Media
  | none => m
  | some d => { m with stsd := m.stsd ++ [d] }

/-- `addSamples` of the sample table: SampleTableAtom.c 342-405, in that order. -/
def tableAdd (junk : Nat → Nat) (m : Media) (count offset : Nat) (durations sizes : List Nat) :
    Res Media :=
  (Stts.addSamples m.stts.entries count durations).bind fun es =>
  if m.stsd.length = 0 then .err .invalidMedia else
  (Stsz.addSamples junk m.stsz count sizes).bind fun stsz =>
  (Stco.addOffset junk m.stco offset).bind fun stco =>
  .ok { m with
    stts := { m.stts with entries := es }
    stsz := stsz
    stco := stco
    stsc := { m.stsc with entries := Stsc.setEntry m.stsc.entries stco.count count m.stsd.length } }

/-- `addSamples`: MediaInformationAtom.c 472-530. The offset of the batch is the size of the media
data so far (DataEntryURLAtom.c 44-61); the bytes are appended last. -/
def addSamples (junkB : Nat → UInt8) (junk : Nat → Nat) (m : Media) (data : Bytes) (count : Nat)
    (durations sizes : List Nat) (entry : Option Nat) : Res Media :=
  if count > 0 then
    match (setEntry m entry).stsd.getLast? with
    | none => .err .invalidMedia
    | some dref =>
      if dref = 0 ∨ dref > m.drefs then .err .badParam else
      (tableAdd junk (setEntry m entry) count m.mdat.dataSize durations sizes).bind fun m' =>
      (Mdat.addData junkB m'.mdat data).bind fun mdat => .ok { m' with mdat := mdat }
  else .ok (setEntry m entry)

/-- Another track of the movie adds its own bytes to the shared media data. -/
def otherTrack (junkB : Nat → UInt8) (m : Media) (data : Bytes) : Res Media :=
  (Mdat.addData junkB m.mdat data).bind fun mdat => .ok { m with mdat := mdat }

/-- What a read returns. -/
structure Sample where
  bytes : Bytes
  size : Nat
  dts : Nat
  duration : Nat
  desc : Nat
  deriving DecidableEq, Repr

/-- `MP4GetIndMediaSampleWithPad`: MP4Media.c 1725-1887. The first sample of the chunk is read
uninitialised when the lookup did not set it. `*outDuration` is a `u64` assigned from an `s32`. -/
def read (m : Media) (n : Nat) : Res (Sample × Media) :=
  (Stsc.lookup m.stsc n).bind fun r =>
  match r.1.firstSample with
  | none => .ub
  | some first =>
    (Stsz.getSampleSizeAndOffset m.stsz n first).bind fun so =>
    (Stco.getChunkOffset m.stco r.1.chunk).bind fun off =>
    if r.1.desc = 0 ∨ r.1.desc > m.stsd.length then .err .badParam else
    match m.stsd[r.1.desc - 1]? with
    | none => .err .badParam
    | some dref =>
      if dref = 0 ∨ dref > m.drefs then .err .badParam else
      (if so.1 > 0 then Mdat.copyData m.mdat w64(off + so.2) so.1 else .ok []).bind fun bs =>
      .ok (⟨bs, so.1, (Stts.getTime m.stts n).1.1, u64i (s32 (Stts.getTime m.stts n).1.2), r.1.desc⟩,
        { m with stts := (Stts.getTime m.stts n).2, stsc := r.2 })

end Verif.Media
