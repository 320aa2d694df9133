import Verif.Model.Reader

/-!
# Asking for a sample by time
MP4Media.c 1386-1461 `MP4GetMediaNextInterestingTime`, 1541-1713 `MP4GetMediaSampleWithPad`; MP4SLPacket.c 229-333
`MP4GetElementaryStreamPacket` for a track that has no object descriptors.

All output pointers are given, apart from the sample description and the padding.
-/

namespace Verif.ByTime

open Reader (Track)

/-- What is returned. -/
structure Found where
  bytes : Bytes
  size : Nat
  dts : Nat
  cts : Nat
  duration : Nat
  desc : Nat
  flags : Nat
  deriving DecidableEq, Repr

/-- The decoding time: lines 1620-1624. -/
def dtsOf (f : Stts.Find) : Nat :=
  if f.exact ≠ Stts.m1 then f.exact else if f.prior ≠ Stts.m1 then f.prior else f.next

/-- `MP4GetMediaSampleWithPad`: lines 1541-1713, in the order of the code. Unlike reading by number, the data is copied also
if there is none. The duration is read uninitialised if no entry was found. -/
def getAt (t : Track) (time : Nat) : Res (Found × Track) :=
  (Stts.findSamples t.media.stts.entries time).bind fun f =>
  (Stsc.lookup t.media.stsc f.num).bind fun r =>
  match r.1.firstSample with
  | none => .ub
  | some first =>
    (Stsz.getSampleSizeAndOffset t.media.stsz f.num first).bind fun so =>
    (Stco.getChunkOffset t.media.stco r.1.chunk).bind fun off =>
    if r.1.desc = 0 ∨ r.1.desc > t.media.stsd.length then .err .badParam else
    match t.media.stsd[r.1.desc - 1]? with
    | none => .err .badParam
    | some dref =>
      if dref = 0 ∨ dref > t.media.drefs then .err .badParam else
      (Mdat.copyData t.media.mdat w64(off + so.2) so.1).bind fun bs =>
      (Stss.isSync ⟨0, t.stss⟩ f.num).bind fun sync =>
      match f.dur with
      | none => .ub
      | some d =>
        .ok (⟨bs, so.1, dtsOf f, w64(dtsOf f + u64i (s32 (Ctts.offsetOf ⟨0, t.ctts⟩ f.num))), u64i (s32 d), r.1.desc,
            (if t.ctts.isSome then 2 else 0) ||| (if sync then 0 else 1)⟩,
          { t with media := { t.media with stsc := r.2 } })

/-- `MP4GetMediaNextInterestingTime`: lines 1386-1461. `MP4NextTimeEdgeOK` is 16 and `MP4NextTimeSearchForward` is 0. Of the
track only the durations are used. -/
def nextTime (t : Track) (flags time dir : Nat) : Res Nat :=
  if flags = 0 then .err .badParam else
  (Stts.findSamples t.media.stts.entries time).bind fun f =>
  if dir = 0 then
    if s64 f.exact ≥ 0 ∧ flags &&& 16 ≠ 0 then .ok f.exact else .ok f.next
  else
    if s64 f.exact ≥ 0 ∧ flags &&& 16 ≠ 0 then .ok f.exact else .ok f.prior

/-- `put32`: MP4SLPacket.c 221-227. -/
def put32 (v : Nat) : Bytes := be 4 v

/-- `MP4GetElementaryStreamPacket`: MP4SLPacket.c 229-333, the packet and the time. -/
def packet (t : Track) (sequence time : Nat) : Res ((Bytes × Nat) × Track) :=
  (getAt t time).bind fun r =>
  let val := w8((sequence &&& 0x1F) <<< 3) ||| (if r.1.flags &&& 1 = 0 then 4 else 0) ||| (if r.1.flags &&& 2 ≠ 0 then 2 else 0) ||| 1
  .ok ((UInt8.ofNat val :: ((if r.1.flags &&& 2 ≠ 0 then put32 w32(r.1.dts) else []) ++ put32 w32(r.1.cts) ++ put32 r.1.size ++ r.1.bytes),
    r.1.dts), r.2)

end Verif.ByTime
