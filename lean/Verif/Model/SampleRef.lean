import Verif.Model.ByTime

/-!
# The times of a sample and where it is, by number

MP4Media.c 2103-2164 `MP4SampleNumToMediaTime`, 1890-2012 `MP4GetIndMediaSampleReference`.

The media has its tables; all output pointers are given. Of the sample description only its number is kept (Model/MediaDesc
has the rest). A call that fails is left with the state before it: `getTimeForSampleNumber` and `lookupSample` may have
moved their caches by then.
-/

namespace Verif.SampleRef

open Reader (Track)

/-- What `MP4SampleNumToMediaTime` returns; the duration is an `s32`. -/
structure Times where
  cts : Nat
  dts : Nat
  duration : Int
  deriving DecidableEq, Repr

/-- `MP4SampleNumToMediaTime`: lines 2103-2164. -/
def timesOf (t : Track) (n : Nat) : Res (Times × Track) :=
  if n = 0 then .err .badParam else
  let g := Stts.getTime t.media.stts n
  .ok (⟨w64(g.1.1 + u64i (s32 (Ctts.offsetOf ⟨0, t.ctts⟩ n))), g.1.1, s32 g.1.2⟩,
    { t with media := { t.media with stts := g.2 } })

/-- What `MP4GetIndMediaSampleReference` returns. -/
structure Ref where
  offset : Nat
  size : Nat
  duration : Nat
  flags : Nat
  desc : Nat
  deriving DecidableEq, Repr

/-- `MP4GetIndMediaSampleReference`: lines 1890-2012, in the order of the code. The offset is a `u32`; the duration, an
`s32`, is stored in a `u32`. -/
def reference (t : Track) (n : Nat) : Res (Ref × Track) :=
  if n = 0 then .err .badParam else
  let g := Stts.getTime t.media.stts n
  (Stsc.lookup t.media.stsc n).bind fun r =>
  match r.1.firstSample with
  | none => .ub
  | some first =>
    (Stsz.getSampleSizeAndOffset t.media.stsz n first).bind fun so =>
    (Stco.getChunkOffset t.media.stco r.1.chunk).bind fun off =>
    if r.1.desc = 0 ∨ r.1.desc > t.media.stsd.length then .err .badParam else
    (Stss.isSync ⟨0, t.stss⟩ n).bind fun sync =>
    .ok (⟨w32(w32(off) + so.2), so.1, u32i (s32 g.1.2), (if t.ctts.isSome then 2 else 0) ||| (if sync then 0 else 1), r.1.desc⟩,
      { t with media := { t.media with stts := g.2, stsc := r.2 } })

/-- The ways to ask for a sample. -/
inductive Query
  | times (n : Nat)
  | ref (n : Nat)
  | sample (n : Nat)
  | at (time : Nat)
  deriving DecidableEq, Repr

inductive Answer
  | times (x : Times)
  | ref (x : Ref)
  | sample (x : Reader.Access)
  | found (x : ByTime.Found)
  deriving DecidableEq, Repr

/-- One call. -/
def ask (t : Track) : Query → Res (Answer × Track)
  | .times n => (timesOf t n).bind fun r => .ok (.times r.1, r.2)
  | .ref n => (reference t n).bind fun r => .ok (.ref r.1, r.2)
  | .sample n => (Reader.getSample t n).bind fun r => .ok (.sample r.1, r.2)
  | .at time => (ByTime.getAt t time).bind fun r => .ok (.found r.1, r.2)

/-- A sequence of calls. -/
def askAll (t : Track) : List Query → Res (List Answer × Track)
  | [] => .ok ([], t)
  | q :: qs => (ask t q).bind fun r => (askAll r.2 qs).bind fun s => .ok (r.1 :: s.1, s.2)

end Verif.SampleRef
