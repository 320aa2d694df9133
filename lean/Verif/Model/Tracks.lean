import Verif.Core.Basic

/-!
# Tracks of a movie and their identifiers
MovieAtom.c, MP4Movies.c
-/

namespace Verif.Tracks

/-- What the functions below use of a movie: `mvhd->nextTrackID` (`u32`) and the list of tracks. A track
is its ID (`tkhd->trackID`, `u32`) and whatever else it has (`α`). -/
structure Movie (α : Type) where
  next : Nat
  tracks : List (Nat × α)
  deriving DecidableEq, Repr

/-- `MP4NewMovieExt`: MP4Movies.c 1344. -/
def create (α : Type) : Movie α := ⟨1, []⟩

/-- `requestTrackID`: MovieAtom.c 73-110, with the movie after the call; the result is `*outSuccess`. -/
def requestID {α : Type} (m : Movie α) (id : Nat) : Movie α × Res Bool :=
  if id = 0 then (m, .err .badParam)
  else if id ≥ m.next then ({ m with next := w32(id + 1) }, .ok true)
  else if m.tracks.any (fun t => t.1 == id) then (m, .ok false)
  else (m, .ok true)

/-- `newTrackWithID`: MovieAtom.c 112-159; `newTrackFlags` and the time of creation are in `t`. The place
of the new track is returned. -/
def newTrackWithID {α : Type} (m : Movie α) (t : α) (id : Nat) : Movie α × Res Nat :=
  match requestID m id with
  | (m', .ok true) => ({ m' with tracks := m'.tracks ++ [(id, t)] }, .ok m'.tracks.length)
  | (m', .ok false) => (m', .err .badParam)
  | (m', .err e) => (m', .err e)
  | (m', .ub) => (m', .ub)

/-- `newTrack`: MovieAtom.c 161-172. -/
def newTrack {α : Type} (m : Movie α) (t : α) : Movie α × Res Nat := newTrackWithID m t m.next

/-- The loop of `MP4GetMovieTrack`. -/
def lookup {α : Type} (id : Nat) : List (Nat × α) → Res α
  | [] => .err .badParam
  | t :: ts => if t.1 = id then .ok t.2 else lookup id ts

/-- `MP4GetMovieTrack`: MP4Movies.c 822-854. -/
def getTrack {α : Type} (m : Movie α) (id : Nat) : Res α := lookup id m.tracks

end Verif.Tracks
