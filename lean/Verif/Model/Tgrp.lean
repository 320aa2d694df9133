import Verif.Core.Box

/-!
# Track groups
TrackGroupTypeAtom.c, TrackGroupAtom.c, MovieTracks.c, StereoVideoGroupAtom.c

A track without a track group box and one with an empty box are the same here: all the functions treat
them alike, but for the eight bytes written for the empty one.
-/

namespace Verif.Tgrp

/-- `MP4TrackGroupTypeAtom`: MP4Atoms.h 1393-1398. -/
structure Grp where
  type : Nat
  version : Nat
  flags : Nat
  id : Nat
  deriving DecidableEq, Repr

/-- `calculateSize`: TrackGroupTypeAtom.c 53-66. -/
def grpSize : Nat := w32(w32(8 + 4) + 4)

/-- `serialize`: TrackGroupTypeAtom.c 36-51; a type of 0 fails the assertion at MP4Atoms.c 956. -/
def putGrp (g : Grp) : W :=
  if g.type = 0 then W.bad
  else serFull grpSize g.type g.version g.flags ;; put32 g.id ;; W.assertFull

/-- `createFromInputStream`: TrackGroupTypeAtom.c 68-83. The result of reading version and flags is not
looked at, but where they cannot be read neither can the four bytes after them. -/
def getGrp (h : Hdr) : P Grp := do
  let vf ← getVersionFlags
  let id ← get32
  pure ⟨h.type, vf.1, vf.2, id⟩

/-! ## The container -/

def typeTrgr : Nat := 0x74726772
def typeMsrc : Nat := 0x6d737263
def typeFree : Nat := 0x66726565
def typeSkip : Nat := 0x736b6970

/-- `findAtomOfType`: TrackGroupAtom.c 78-104. -/
def find (l : List Grp) (type : Nat) : Option Grp := l.find? (fun g => g.type == type)

/-- `setGroupID` (TrackGroupTypeAtom.c 85-94) of the first group of the type. -/
def setId (type id : Nat) : List Grp → List Grp
  | [] => []
  | g :: l => if g.type = type then { g with id := id } :: l else g :: setId type id l

/-- `MP4AddTrackGroup`: MovieTracks.c 352-386. -/
def add (l : List Grp) (id type : Nat) : List Grp :=
  match find l type with
  | some _ => setId type id l
  | none => l ++ [⟨type, 0, 0, id⟩]

/-- `MP4GetTrackGroup`: MovieTracks.c 658-683. -/
def get (l : List Grp) (type : Nat) : Res Nat :=
  if type = 0 then .err .badParam
  else match find l type with
    | none => .err .badParam
    | some g => .ok g.id

/-- What storing a sample of an object descriptor stream does to the groups of its track
(`MP4ParseODFrame`): MediaAtom.c 645-662. -/
def odGroups (l : List Grp) : List Grp :=
  match find l typeMsrc with
  | some _ => l
  | none => l ++ [⟨typeMsrc, 0, 0, 0⟩]

/-- `calculateSize`: TrackGroupAtom.c 63-75. -/
def size (l : List Grp) : Nat := w32(8 + (l.map fun _ => grpSize).sum)

/-- `serialize`: TrackGroupAtom.c 46-61. -/
def serialize (l : List Grp) : W :=
  serBase (size l) typeTrgr ;; W.each (fun g => nested grpSize (putGrp g)) l ;; W.assertFull

/-- The loop of `createFromInputStream`: TrackGroupAtom.c 128-143. Every child is read as a group, since the
list of prototypes is empty and the default is `'msrc'` (MP4Atoms.c 852-864). Every round reads at least
eight bytes, so the number of unread bytes bounds the number of rounds. -/
def loop (size : Nat) : Nat → List Grp → P (List Grp)
  | 0, _ => P.bad
  | fuel + 1, l => do
    let br ← P.bytesRead
    if br < size then do
      let g ← getAtom getGrp
      loop size fuel (if g.type = typeFree ∨ g.type = typeSkip then l else l ++ [g])
    else pure l

/-- `createFromInputStream`: TrackGroupAtom.c 117-150. -/
def parse (h : Hdr) : P (List Grp) := do
  let n ← P.available
  let l ← loop h.size (n + 1) []
  let br ← P.bytesRead
  if br ≠ h.size then P.fail .badData else pure l

/-! ## The stereo video group -/

def typeSter : Nat := 0x73746572

/-- `MP4StereoVideoGroupAtom`: MP4Atoms.h 1693-1703. -/
structure Ster where
  id : Nat
  left : Nat
  deriving DecidableEq, Repr

/-- `serialize` with the size of `calculateSize`: StereoVideoGroupAtom.c 43-88. `leftViewFlag` is a `u8`, which
becomes an `int`; shifting anything but 0 by 31 does not fit an `int`, which the C standard leaves undefined.
`wraps`: the compiler defines it, as the bits shifted out being lost. -/
def putSter (wraps : Bool) (version flags : Nat) (x : Ster) : W :=
  serFull w32(12 + 8) typeSter version flags ;; put32 x.id ;;
  (if x.left = 0 ∨ wraps = true then put32 w32(x.left * 2 ^ 31) ;; W.assertFull else W.bad)

/-- `createFromInputStream`: StereoVideoGroupAtom.c 90-112. -/
def getSter (h : Hdr) : P ((Nat × Nat) × Ster) := do
  let vf ← getVersionFlags
  let id ← get32
  let v ← get32
  let r ← P.bytesRead
  if r ≠ h.size then P.bad else pure (vf, ⟨id, v / 2 ^ 31⟩)

end Verif.Tgrp
