import Verif.Model.Headers

/-!
# How a movie and its tracks are to be shown

MP4Movies.c 856-947 and 1342-1349, MovieTracks.c 52-81 and 434-600, MovieAtom.c 112-160 and 174-303, TrackAtom.c 220-353, TrackHeaderAtom.c
161-184, MovieHeaderAtom.c 160-185. Of a movie there are the headers, of which a movie and each track have one. No fragment was started.
The choice of the numbers of tracks is that of C33.
-/

namespace Verif.Display

open Verif.Headers

structure Movie where
  mvhd : Mvhd
  tracks : List Tkhd
  deriving DecidableEq, Repr

def identity : Matrix := ⟨0x10000, 0, 0, 0, 0x10000, 0, 0, 0, 0x40000000⟩

def zeros (n : Nat) : Bytes := List.replicate n 0

/-- `MP4CreateMovieHeaderAtom`: MovieHeaderAtom.c 160-185, and `MP4NewMovie`: MP4Movies.c 1342-1349. -/
def newMovie (now : Nat) : Movie :=
  ⟨⟨0, 0, now, now, 600, 0, 1 <<< 16, 1 <<< 8, zeros 10, identity, 0, 0, 0, 0, 0, 0, 1⟩, []⟩

/-- `MP4CreateTrackHeaderAtom`: TrackHeaderAtom.c 161-184, and `newTrackWithID`: MovieAtom.c 135-151. -/
def newTrack (kind id now : Nat) : Tkhd :=
  let h : Tkhd := ⟨0, 7, now, now, id, 0, 0, zeros 8, 0, 0, 0, 0, identity, 0, 0⟩
  if kind &&& 2 ≠ 0 then { h with width := 320 <<< 16, height := 240 <<< 16 }
  else if kind &&& 4 ≠ 0 then { h with volume := 1 <<< 8 }
  else h

inductive TrackCall where
  | enabled (e : Nat)
  | matrix (m : Option Matrix)
  | layer (l : Int)
  | dimensions (w h : Nat)
  | volume (v : Int)
  deriving DecidableEq, Repr

/-- MovieTracks.c 67-81, 434-469, 490-507, 527-544, 564-579, and TrackAtom.c 220-232, 247-258, 273-286, 303-314, 329-345. The type of
`layer` and `volume` is `s16`, that of the fields `u32`. -/
def setTrack (h : Tkhd) : TrackCall → Tkhd
  | .enabled e => { h with flags := if e ≠ 0 then h.flags ||| 1 else h.flags &&& 0xFFFFFFFE }
  | .matrix m => { h with matrix := m.getD identity }
  | .layer l => { h with layer := u32i l }
  | .dimensions w ht => { h with width := w32(w <<< 16), height := w32(ht <<< 16) }
  | .volume v => { h with volume := u32i v }

/-- `(s16)`. -/
def s16 (n : Nat) : Int := if w16(n) < 32768 then (w16(n) : Nat) else ((w16(n) : Nat) : Int) - 65536

/-- TrackAtom.c 347-353. -/
def getEnabled (h : Tkhd) : Nat := if h.flags &&& 1 ≠ 0 then 1 else 0
/-- TrackAtom.c 234-245. -/
def getMatrixOf (h : Tkhd) : Matrix := h.matrix
/-- TrackAtom.c 260-271. -/
def getLayer (h : Tkhd) : Int := s16 h.layer
/-- TrackAtom.c 288-301. -/
def getDimensions (h : Tkhd) : Nat × Nat := (h.width >>> 16, h.height >>> 16)
/-- TrackAtom.c 316-327. -/
def getVolume (h : Tkhd) : Int := s16 h.volume

inductive Call where
  /-- A track of a kind (`MP4NewTrackIsVisual` and others) with a number. -/
  | newTrack (kind id now : Nat)
  /-- A call for the track with an index (from 0) in the list. -/
  | track (i : Nat) (c : TrackCall)
  | matrix (m : Option Matrix)
  | rate (r : Nat)
  | volume (v : Int)
  | timeScale (t : Nat)
  /-- The movie is written and read again. -/
  | reopen
  deriving DecidableEq, Repr

/-- A header is written and read. -/
def reread {α : Type} (size : Nat) (ser : W) (body : Hdr → P α) : Res α :=
  (runW size ser).bind fun bs => (parseAtom body bs).bind fun r => .ok r.1

def rereadAll : List Tkhd → Res (List Tkhd)
  | [] => .ok []
  | h :: l => (reread (tkhdSize h) (tkhdSerialize h) tkhdParse).bind fun h' => (rereadAll l).bind fun l' => .ok (h' :: l')

def reopen (m : Movie) : Res Movie :=
  (reread (mvhdSize m.mvhd) (mvhdSerialize m.mvhd) mvhdParse).bind fun v => (rereadAll m.tracks).bind fun l => .ok ⟨v, l⟩

/-- A call; the movie stays as it is if it fails. MP4Movies.c 856-936, MovieAtom.c 174-190, 205-226, 250-261, 277-288. `ub`: a track that
there is not. -/
def call (m : Movie) : Call → Res Movie
  | .newTrack kind id now => .ok { m with tracks := m.tracks ++ [newTrack kind id now] }
  | .track i c =>
    match m.tracks[i]? with
    | none => .ub
    | some h => .ok { m with tracks := m.tracks.set i (setTrack h c) }
  | .matrix x => .ok { m with mvhd := { m.mvhd with matrix := x.getD identity } }
  | .rate r => .ok { m with mvhd := { m.mvhd with rate := r } }
  | .volume v => .ok { m with mvhd := { m.mvhd with volume := u32i v } }
  | .timeScale t => if t = 0 then .ok m else .ok { m with mvhd := { m.mvhd with timeScale := t } }
  | .reopen => reopen m

/-- MP4Movies.c 427-445, 895-947, MovieAtom.c 228-248, 263-275, 290-303. -/
def getMovieMatrix (m : Movie) : Matrix := m.mvhd.matrix
def getRate (m : Movie) : Nat := m.mvhd.rate
def getMovieVolume (m : Movie) : Int := s16 m.mvhd.volume
def getTimeScale (m : Movie) : Nat := m.mvhd.timeScale

end Verif.Display
