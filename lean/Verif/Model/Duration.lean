import Verif.Model.Stts
import Verif.Model.Elst

/-!
# Durations of media, tracks and movies, and edits: MediaAtom.c, TrackAtom.c, MovieAtom.c, MovieTracks.c, EditAtom.c

Simplifications: the movie, track and media headers and the sample table are present. Nothing is said about the
state after an error. The data handler set at the end of `MP4InsertMediaIntoTrack` (MovieTracks.c 854-871) is
left out.
-/

namespace Verif.Dur

/-- What durations of a track depend on. `mediaDuration` (a `u64`) and `mediaScale` are in the media header,
`duration` (a `u64`) is in the track header; `edts` is the edit box, which may lack an edit list. -/
structure Trk where
  stts : List (Nat × Nat)
  mediaDuration : Nat
  mediaScale : Nat
  edts : Option (Option (List Elst.Entry))
  duration : Nat
  deriving DecidableEq, Repr

/-- `calculateDuration` of a media: MediaAtom.c 53-72, MediaInformationAtom.c 743-760, SampleTableAtom.c 144-161.
`MP4EndMediaEdits` is this and nothing else (MP4Media.c 53-70). -/
def calcMedia (t : Trk) : Trk := { t with mediaDuration := Stts.totalDuration t.stts }

/-- `adjustedDuration`: TrackAtom.c 86-99. -/
def adjusted (mediaDuration mediaScale movieScale : Nat) : Res Nat :=
  if mediaScale = 0 then .err .badParam else .ok w32(w64(mediaDuration * movieScale) / mediaScale)

/-- `getEffectiveDuration` of the edit box, which calls a function of the edit list: EditAtom.c 47-60. 0 without
edits: TrackAtom.c 186-192. -/
def effective : Option (Option (List Elst.Entry)) → Res Nat
  | none => .ok 0
  | some none => .ub
  | some (some es) => .ok (Elst.effectiveDuration es)

/-- `calculateDuration` of a track: TrackAtom.c 165-204. The duration in the media header is used as it is. -/
def calcTrack (movieScale : Nat) (t : Trk) : Res Trk :=
  (effective t.edts).bind fun e =>
  if e = 0 then
    (adjusted w32(t.mediaDuration) t.mediaScale movieScale).bind fun d => .ok { t with duration := d }
  else .ok { t with duration := e }

/-- `MP4GetTrackDuration`: MovieTracks.c 400-433; `getDuration`: TrackAtom.c 206-219. -/
def trackDuration (movieScale : Nat) (t : Trk) : Res (Nat × Trk) :=
  (calcTrack movieScale (calcMedia t)).bind fun t' => .ok (w32(t'.duration), t')

/-- The loop of `calculateDuration` of a movie: MovieAtom.c 515-529. -/
def movieLoop (movieScale : Nat) : List Trk → Nat → Res (Nat × List Trk)
  | [], m => .ok (m, [])
  | t :: ts, m =>
    (calcTrack movieScale t).bind fun t' =>
    (movieLoop movieScale ts (if w32(t'.duration) > m then w32(t'.duration) else m)).bind fun r =>
    .ok (r.1, t' :: r.2)

/-- `MP4GetMovieDuration`: MP4Movies.c 405-425; `calculateDuration`: MovieAtom.c 499-534. -/
def movieDuration (movieScale : Nat) (ts : List Trk) : Res (Nat × List Trk) := movieLoop movieScale ts 0

/-- The entries of the edit list, none if it does not exist. -/
def edits (t : Trk) : List Elst.Entry :=
  match t.edts with
  | some (some es) => es
  | _ => []

/-- `MP4InsertMediaIntoTrack`: MovieTracks.c 790-876. The start times and the rate are `s32`, the duration is a
`u64`. -/
def insertMedia (movieScale : Nat) (t : Trk) (start mediaStart : Int) (duration : Nat) (rate : Int) : Res Trk :=
  if rate < 0 ∨ rate > 1 then .err .badParam
  else (trackDuration movieScale t).bind fun r =>
    if start = 0 ∧ mediaStart = 0 ∧ rate = 1 ∧ duration = r.1 then
      if duration = 0 then .err .badParam else .ok r.2
    else if t.mediaScale = 0 then .ub
    else (Elst.insertSegment (edits t) start mediaStart (w64(duration * movieScale) / t.mediaScale) rate.toNat).bind
      fun es => .ok { r.2 with edts := some (some es) }

/-- `MP4SetTrackOffset`: MovieTracks.c 915-959. -/
def setOffset (movieScale : Nat) (t : Trk) (offset : Nat) : Res Trk :=
  (trackDuration movieScale t).bind fun r =>
  .ok { r.2 with edts := some (some (Elst.setTrackOffset (edits t) offset r.1)) }

/-- `MP4GetTrackOffset`: MovieTracks.c 878-913. -/
def getOffset (t : Trk) : Nat := Elst.getTrackOffset (edits t)

/-! ## Fragments -/

/-- What a track fragment does to durations: its decode time, the duration of its header if it has the flag
`duration-is-empty`, the durations of the samples in its runs. -/
structure Frag where
  time : Option Nat
  empty : Option Nat
  durations : List Nat
  deriving DecidableEq, Repr

/-- The last sample is extended up to the decode time: MovieFragmentAtom.c 154-171. -/
def startAt (t : Trk) : Option Nat → Res Trk
  | none => .ok t
  | some time =>
    if time < t.mediaDuration then .err .invalidMedia
    else if time > t.mediaDuration then
      (Stts.extendLast t.stts w32(time - t.mediaDuration)).bind fun es => .ok { t with stts := es }
    else .ok t

/-- One track fragment in `mergeFragments`: MovieFragmentAtom.c 154-204, for the time-to-sample table and the edit
list. The samples of the runs are added one after the other (Model/Merge, `Stts.addSamples`). -/
def mergeFrag (movieScale : Nat) (t : Trk) (f : Frag) : Res Trk :=
  (startAt (calcMedia t) f.time).bind fun t1 =>
  match f.empty with
  | some gap =>
    (if Stts.totalDuration t.stts > 0 ∧ t.edts = none then
      insertMedia movieScale t1 (-1) 0 (Stts.totalDuration t.stts) 1 else .ok t1).bind fun t2 =>
    insertMedia movieScale t2 (-1) (-1) gap 1
  | none =>
    let t2 := calcMedia { t1 with stts := f.durations.foldl Stts.addSample t1.stts }
    if t2.edts = none then .ok t2
    else insertMedia movieScale t2 (-1) (s32 w32(Stts.totalDuration t.stts))
      w64(t2.mediaDuration + (18446744073709551616 - Stts.totalDuration t.stts)) 1

end Verif.Dur
