import Verif.Model.Elst

/-!
# Track time to media time, and the edits of a track

EditListAtom.c 320-387 `getTimeAndRate`; MovieTracks.c 986-1052 `MP4TrackTimeToMediaTime`, 1151-1213
`MP4GetTrackEditlist`.

The track has a movie and a media, both with their headers, so the time scales are numbers. The output pointers are given.
`(p + 1)->mediaTime` (line 362) is a read after the end of a block from `calloc(1, sizeof(edtsEntry))`.
-/

namespace Verif.TrackTime

open Elst (Entry)

/-- What `getTimeAndRate` returns. -/
structure Out where
  mediaTime : Int
  rate : Nat
  prior : Nat
  next : Nat
  deriving DecidableEq, Repr

/-- Line 369: `s64 + u64` is a `u64`, stored in an `s64`. -/
def mediaTimeOf (e : Entry) (t cur movieScale mediaScale : Nat) : Int :=
  s64 w64(u64i e.mediaTime + w64(w64(t + (18446744073709551616 - cur)) / movieScale * mediaScale))

/-- The loop, lines 345-381; `cur` is `currentMovieTime`. After a normal edit it goes on. -/
def loop (t movieScale mediaScale : Nat) : List Entry → Nat → Out → Res Out
  | [], _, o => .ok o
  | e :: es, cur, o =>
    if w64(cur + e.duration) ≥ t then
      if e.empty then .ub
      else loop t movieScale mediaScale es cur
        { o with mediaTime := mediaTimeOf e t cur movieScale mediaScale, rate := e.rate }
    else loop t movieScale mediaScale es w64(cur + e.duration)
      { o with prior := w64(e.duration / movieScale * mediaScale) }

/-- `getTimeAndRate`: EditListAtom.c 320-387. -/
def timeAndRate (es : List Entry) (t movieScale mediaScale : Nat) : Res Out :=
  if movieScale = 0 ∨ mediaScale = 0 then .err .badParam
  else loop t movieScale mediaScale es 0 ⟨-1, 65536, 0, 0⟩

/-- The edit box of a track (`trackEditAtom`) and the edit list in it (`editListAtom`), if there are such. -/
abbrev Edits := Option (Option (List Entry))

/-- Lines 1027-1030, 1168-1176: without a list the count is 0. -/
def entries (ed : Option (List Entry)) : List Entry := ed.getD []

/-- `MP4TrackTimeToMediaTime`: MovieTracks.c 986-1052. -/
def toMediaTime (ed : Edits) (movieScale mediaScale t : Nat) : Res Int :=
  if movieScale = 0 then .err .invalidMedia
  else match ed with
    | none => .ok (s64 w64(t / movieScale * mediaScale))
    | some l =>
      if (entries l).length = 0 then .ok (s64 w64(t / movieScale * mediaScale))
      else (timeAndRate (entries l) t movieScale mediaScale).bind fun o => .ok o.mediaTime

/-- `MP4GetTrackEditlist`: MovieTracks.c 1151-1213; the segment duration and the media time. -/
def editAt (ed : Edits) (n : Nat) : Res (Nat × Int) :=
  match ed with
  | none => .err .notFound
  | some l =>
    if n > (entries l).length then .err .badParam
    else if (entries l).length = 0 then .err .notFound
    else (Elst.getIndSegmentTime (entries l) n).bind fun r => .ok (r.2.2, r.2.1)

end Verif.TrackTime
