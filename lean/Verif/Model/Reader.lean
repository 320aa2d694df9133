import Verif.Model.Media
import Verif.Model.Ctts
import Verif.Model.Stss
import Verif.Model.Elst

/-!
# Track readers: MP4OrdinaryTrackReader.c

Not modelled: object descriptor tracks (`rewriteODFrame`) and the `mebx` tracks, whose samples are
taken apart; `getNextPacket` with an SL configuration.
-/

namespace Verif.Reader

/-- What a reader uses of a track: the media (Model/Media.lean) and the two optional tables. -/
structure Track where
  media : Media.Media
  ctts : Option Ctts.Ctts
  stss : Option Stss.Stss

/-- A sample as `MP4GetIndMediaSampleWithPad` returns it. -/
structure Access where
  sample : Media.Sample
  /-- `*outCTSOffset`, an `s32`. -/
  offset : Int
  flags : Nat
  deriving DecidableEq, Repr

/-- `MP4GetIndMediaSampleWithPad`: MP4Media.c 1725-1887, with the composition offset (1793-1806) and
the sync sample table (1862-1872). `MP4MediaSampleHasCTSOffset` is 2, `MP4MediaSampleNotSync` is 1. -/
def getSample (t : Track) (n : Nat) : Res (Access × Track) :=
  (Media.read t.media n).bind fun r =>
  (Stss.isSync ⟨0, t.stss⟩ n).bind fun sync =>
  .ok (⟨r.1, s32 (Ctts.offsetOf ⟨0, t.ctts⟩ n),
      (if t.ctts.isSome then 2 else 0) ||| (if sync then 0 else 1)⟩, { t with media := r.2 })

/-- `MP4TrackReaderStruct`: MP4TrackReader.h 30-63, the fields that are numbers. -/
structure Reader where
  elst : Option (List Elst.Entry)
  movieScale : Nat
  mediaScale : Nat
  segments : Nat
  nextSegment : Nat
  endTime : Nat
  movieTime : Nat
  mediaTime : Int
  beginTime : Nat
  sequence : Nat
  count : Nat
  desc : Nat
  current : Nat
  next : Nat
  deriving DecidableEq, Repr

/-- The loop of `getNextSegment` over empty edits: lines 68-85. It runs at most once per edit; the
first argument counts these steps. -/
def skipEmpty (es : List Elst.Entry) (segments : Nat) : Nat → Nat → Nat × Res Unit
  | 0, n => (n, .ub)
  | k + 1, n => match Elst.isEmptyEdit es n with
    | .ok true => if n = segments then (n, .err .invalidMedia) else skipEmpty es segments k w32(n + 1)
    | .ok false => (n, .ok ())
    | .err e => (n, .err e)
    | .ub => (n, .ub)

/-- `MP4MediaTimeToSampleNum` with only the sample number asked for. -/
def sampleAt (t : Track) (time : Nat) : Res Nat :=
  (Stts.mediaTimeToSampleNum t.media.stts.entries time).bind fun r => .ok r.1

/-- The rest of `getNextSegment`, for a segment that is not empty: lines 86-105. The fields are
assigned one after the other, so after an error those before it have changed. -/
def enterSegment (t : Track) (es : List Elst.Entry) (r : Reader) : Reader × Res Unit :=
  match Elst.getIndSegmentTime es r.nextSegment with
  | .err e => (r, .err e)
  | .ub => (r, .ub)
  | .ok (movieTime, mediaTime, duration) =>
    match sampleAt t (u64i mediaTime) with
    | .err e => ({ r with movieTime := movieTime, mediaTime := mediaTime }, .err e)
    | .ub => (r, .ub)
    | .ok first =>
      if r.movieScale = 0 then (r, .ub) else
      match sampleAt t w64(u64i mediaTime + w64(r.mediaScale * duration) / r.movieScale) with
      | .err e => ({ r with
          movieTime := movieTime, mediaTime := mediaTime, next := first,
          endTime := w64(r.mediaScale * w64(movieTime + duration)) / r.movieScale }, .err e)
      | .ub => (r, .ub)
      | .ok last =>
        if last < first then ({ r with
          movieTime := movieTime, mediaTime := mediaTime, next := first,
          endTime := w64(r.mediaScale * w64(movieTime + duration)) / r.movieScale }, .err .invalidMedia)
        else ({ r with
          movieTime := movieTime, mediaTime := mediaTime, next := first,
          endTime := w64(r.mediaScale * w64(movieTime + duration)) / r.movieScale,
          count := last - first,
          beginTime := w64(r.mediaScale * movieTime) / r.movieScale }, .ok ())

/-- `getNextSegment`: lines 54-109. -/
def getNextSegment (t : Track) (r : Reader) : Reader × Res Unit :=
  match r.elst with
  | none => (r, .err .invalidMedia)
  | some es => match skipEmpty es r.segments (es.length + 1) r.nextSegment with
    | (n, .ok ()) => enterSegment t es { r with nextSegment := n }
    | (n, .err e) => ({ r with nextSegment := n }, .err e)
    | (n, .ub) => ({ r with nextSegment := n }, .ub)

/-- A reader as `calloc` leaves it, with the time scales: lines 342-360. -/
def blank (movieScale mediaScale : Nat) : Reader :=
  ⟨none, movieScale, mediaScale, 0, 0, 0, 0, 0, 0, 0, 0, 0, 0, 0⟩

/-- `setupReader`: lines 284-333. `edits` are the entries of the edit list, empty if there is none. -/
def setup (t : Track) (edits : List Elst.Entry) (movieScale mediaScale : Nat) : Res Reader :=
  if edits.length = 0 then
    .ok { blank movieScale mediaScale with
      segments := 1, count := t.media.stsz.count, next := 1, desc := 1 }
  else
    match getNextSegment t { blank movieScale mediaScale with
      elst := some edits, segments := edits.length, nextSegment := 1, desc := 1 } with
    | (r, .ok ()) => .ok r
    | (_, .err e) => .err e
    | (_, .ub) => .ub

/-- What `getNextAccessUnit` returns. -/
structure AccessUnit where
  bytes : Bytes
  size : Nat
  flags : Nat
  cts : Int
  dts : Int
  duration : Nat
  deriving DecidableEq, Repr

/-- Lines 189-194: `*outCTS`. The sum of two `s32` may overflow. -/
def ctsOf (flags : Nat) (dts offset : Int) : Res Int :=
  if flags &&& 2 ≠ 0 then
    if -2147483648 ≤ dts + offset ∧ dts + offset < 2147483648 then .ok (dts + offset) else .ub
  else .ok dts

/-- Lines 196-212: the end of a segment, and the duration reported. -/
def finish (t : Track) (r : Reader) (duration : Nat) (dts : Int) : Reader × Res Nat :=
  if r.elst ≠ none ∧ w64(duration + u64i dts) ≥ r.endTime then
    if w32(r.nextSegment + 1) ≤ r.segments then
      match getNextSegment t { r with nextSegment := w32(r.nextSegment + 1) } with
      | (r', .ok ()) => (r', .ok w32(w64(r.endTime + (18446744073709551616 - u64i dts))))
      | (r', .err e) => (r', .err e)
      | (r', .ub) => (r', .ub)
    else ({ r with nextSegment := w32(r.nextSegment + 1) },
      .ok w32(w64(r.endTime + (18446744073709551616 - u64i dts))))
  else (r, .ok w32(duration))

/-- The decoding time reported: line 187, a `u64` difference cut to 32 bits and read as `s32`. -/
def dtsOf (r : Reader) (dts : Nat) : Int :=
  s32 w32(w64(w64(dts + (18446744073709551616 - u64i r.mediaTime)) + r.beginTime))

/-- The state after the sample has been fetched: lines 168, 185 and `sampleDescIndex`. -/
def advance (r : Reader) (desc : Nat) : Reader :=
  { r with desc := desc, current := r.next, next := w32(r.next + 1) }

/-- `getNextAccessUnit`: lines 111-218, for a track that is neither an object descriptor track nor a
`mebx` track. Simplification: the caches of the tables are left alone when the sample cannot be
read. -/
def next (t : Track) (r : Reader) : (Track × Reader) × Res AccessUnit :=
  if r.nextSegment > r.segments then ((t, r), .err .eof)
  else if r.elst = none ∧ r.next > r.count then ((t, r), .err .eof)
  else match getSample t r.next with
    | .err e => ((t, r), .err e)
    | .ub => ((t, r), .ub)
    | .ok (a, t') =>
      match ctsOf a.flags (dtsOf r a.sample.dts) a.offset with
      | .err e => ((t', advance r a.sample.desc), .err e)
      | .ub => ((t', advance r a.sample.desc), .ub)
      | .ok cts =>
        match finish t' (advance r a.sample.desc) a.sample.duration (dtsOf r a.sample.dts) with
        | (r', .err e) => ((t', r'), .err e)
        | (r', .ub) => ((t', r'), .ub)
        | (r', .ok duration) => ((t', r'),
            .ok ⟨a.sample.bytes, a.sample.size, a.flags, cts, dtsOf r a.sample.dts, duration⟩)

/-- The results of `k` calls. -/
def calls : Nat → Track → Reader → List (Res AccessUnit)
  | 0, _, _ => []
  | k + 1, t, r => (next t r).2 :: calls k (next t r).1.1 (next t r).1.2

end Verif.Reader
