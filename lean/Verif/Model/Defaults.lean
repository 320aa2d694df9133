import Verif.Model.Rows
import Verif.Model.Traf

/-!
# Defaults for the fragments of tracks

MovieTracks.c 1054-1109, MovieExtendsAtom.c 50-109, 167-265, 294-340, MP4MovieFile.c 336-422, MovieAtom.c 411-497, TrackAtom.c 355-373,
MediaAtom.c 213-227. Of a track there are its number, the index of its current sample description and the duration of its media.
The boxes of the movie other than `trex` are left out, and so are the other boxes in `mvex`, and sample groups and auxiliary
information of fragments. The type of the file allows fragments.
-/

namespace Verif.Defs

open Rows (Trex)

structure Track where
  id : Nat
  desc : Nat
  duration : Nat
  deriving DecidableEq, Repr

/-- `MP4TrackExtendsAtom`; `time` is `none` until the duration was added (`isInitialMediaDecodeTimeAdded`). -/
structure Ext where
  trex : Trex
  time : Option Nat
  deriving DecidableEq, Repr

/-- The movie; `moof` are the track fragments, once the first fragment was started, and `file` are the `trex` boxes written by then.
`mvex` is NULL before the first call. -/
structure Movie where
  tracks : List Track
  mvex : Option (List Ext)
  moof : Option (List Traf.Traf)
  file : List Bytes
  deriving DecidableEq, Repr

/-- `default_sample_flags`: MovieTracks.c 1096; `pad` is a `u8`. -/
def flagsOf (isSync pad : Nat) : Nat := ((pad &&& 7) <<< 17) ||| (if isSync ≠ 0 then 0 else 0x10000)

/-- `ISOSetTrackFragmentDefaults`: MovieTracks.c 1054-1109, for a track with the number `id`. Once there is a fragment, it is what is in
place of the movie box, and `mvex` is looked for in it. -/
def setDefaults (m : Movie) (id duration size isSync pad : Nat) : Res Movie :=
  match m.moof with
  | some _ => .ub
  | none => .ok { m with mvex := some (m.mvex.getD [] ++ [⟨⟨id, 0, duration, size, flagsOf isSync pad⟩, none⟩]) }

/-- `getTrackMedia`: MovieAtom.c 424-455. The callers use the pointer also if no track was found. -/
def trackOf (m : Movie) (id : Nat) : Res Track :=
  if id = 0 then .err .badParam
  else match m.tracks.find? (fun t => t.id == id) with
    | none => .ub
    | some t => .ok t

/-- `setSampleDescriptionIndexes`: MovieExtendsAtom.c 294-318. -/
def setIndexes (m : Movie) : List Ext → Res (List Ext)
  | [] => .ok []
  | x :: l => do
    let t ← trackOf m x.trex.track
    let r ← setIndexes m l
    .ok ({ x with trex := { x.trex with desc := t.desc } } :: r)

/-- The `trex` boxes of the movie: MovieExtendsAtom.c 50-85. -/
def writeAll : List Ext → Res (List Bytes)
  | [] => .ok []
  | x :: l => do
    let b ← runW 32 (x.trex.serialize 0 0)
    let r ← writeAll l
    .ok (b :: r)

/-- The time of a track extends box, the duration of the media the first time: MovieExtendsAtom.c 203-221. -/
def timed (m : Movie) (x : Ext) : Res Ext :=
  match x.time with
  | some _ => .ok x
  | none => (trackOf m x.trex.track).bind fun t => .ok { x with time := some w32(t.duration) }

/-- The fragment of a track: MovieExtendsAtom.c 180-227. -/
def makeTraf (x : Ext) : Traf.Traf :=
  ⟨⟨x.trex.desc, x.trex.duration, x.trex.size, x.trex.sampleFlags⟩, ⟨0, 0, x.trex.track, 0, x.trex.desc, 0, 0, 0⟩,
    some ⟨0, 0, x.time.getD 0⟩, []⟩

/-- `maketrackfragments`: MovieExtendsAtom.c 167-236. -/
def makeTrafs (m : Movie) : List Ext → Res (List Ext × List Traf.Traf)
  | [] => .ok ([], [])
  | x :: l => do
    let x ← timed m x
    let r ← makeTrafs m l
    .ok (x :: r.1, makeTraf x :: r.2)

/-- `ISOStartMovieFragment` for the first fragment: MP4MovieFile.c 336-422. -/
def start (m : Movie) : Res Movie :=
  match m.mvex with
  | none => .err .badParam
  | some l => do
    let l ← setIndexes m l
    let bs ← writeAll l
    let r ← makeTrafs m l
    .ok { m with mvex := some r.1, moof := some r.2, file := bs }

/-- The fragment that samples of a track go to: each fragment with the number of the track replaces the one before, MediaAtom.c 219-220. -/
def current (m : Movie) (id : Nat) : Option Traf.Traf :=
  (m.moof.getD []).reverse.find? (fun t => t.tfhd.trackId == id)

/-! ## Reading -/

def readAll : List Bytes → Res (List Trex)
  | [] => .ok []
  | b :: l => do
    let r ← parseAtom Trex.parse b
    let x ← readAll l
    .ok (r.1.2 :: x)

/-- `getTrackExtendsAtom`: MovieAtom.c 411-422, MovieExtendsAtom.c 239-263; the first that is found. `ub`: nothing is found, and the
pointer of the caller is not set (MovieFragmentAtom.c 110-113). -/
def found (l : List Trex) (id : Nat) : Res Traf.Trex :=
  if id = 0 then .err .badParam
  else match l.find? (fun x => x.track == id) with
    | none => .ub
    | some x => .ok ⟨x.desc, x.duration, x.size, x.sampleFlags⟩

end Verif.Defs
