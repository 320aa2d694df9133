import Verif.Core.Box

/-!
# Boxes in boxes: the container macros of MP4Impl.h, UnknownAtom.c and FreeSpaceAtom.c

The containers are those whose `createFromInputStream` is `PARSE_ATOM_LIST` alone and whose members
stay in one list: `edts`, `dinf`, `schi`, `ipco`, `jp2h`, `rinf`, `moov`, `trak`, `mdia`, `minf`.
Simplification: a box of any other class is its bytes, as in UnknownAtom.c.
-/

namespace Verif.Tree

/-- A box: the bytes of its payload, or a container with its `atomList`. -/
inductive Tree where
  | leaf (type : Nat) (uuid data : Bytes)
  | node (type : Nat) (children : List Tree)

/-- The field `type`. -/
def Tree.type : Tree → Nat
  | .leaf t _ _ => t
  | .node t _ => t

/-- `MP4FreeSpaceAtomType`, `MP4SkipAtomType`: MP4Atoms.h 62 and 89. -/
def isFree (type : Nat) : Bool := type == fcc 'f' 'r' 'e' 'e' || type == fcc 's' 'k' 'i' 'p'

/-- The members that `addAtom` of a container accepts only once, with the error for another one. The
types in one group share a field of the container. `none`: not a container. EditAtom.c 62-75,
DataInformationAtom.c 100-117, SchemeInfoAtom.c 88-99, ItemPropertyContainerAtom.c 30-41,
MJ2HeaderAtom.c 80-127, RestrictedSchemeInfoAtom.c 118-142, MovieAtom.c 316-364, TrackAtom.c 375-429,
MediaAtom.c 89-122, MediaInformationAtom.c 67-97. -/
def groups (type : Nat) : Option (List (List Nat) × Err) :=
  if type = fcc 'e' 'd' 't' 's' then some ([[fcc 'e' 'l' 's' 't']], .invalidMedia)
  else if type = fcc 'd' 'i' 'n' 'f' then some ([[fcc 'd' 'r' 'e' 'f']], .badData)
  else if type = fcc 's' 'c' 'h' 'i' then some ([], .badData)
  else if type = fcc 'i' 'p' 'c' 'o' then some ([], .badData)
  else if type = fcc 'j' 'p' '2' 'h' then
    some ([[fcc 'i' 'h' 'd' 'r'], [fcc 'b' 'p' 'c' 'c'], [fcc 'c' 'o' 'l' 'r']], .badData)
  else if type = fcc 'r' 'i' 'n' 'f' then
    some ([[fcc 'f' 'r' 'm' 'a'], [fcc 's' 'c' 'h' 'm'], [fcc 's' 'c' 'h' 'i']], .badData)
  else if type = fcc 'm' 'o' 'o' 'v' then
    some ([[fcc 'i' 'o' 'd' 's'], [fcc 'm' 'v' 'h' 'd'], [fcc 'u' 'd' 't' 'a'], [fcc 'm' 'e' 't' 'a'],
      [fcc 'm' 'e' 'c' 'o'], [fcc 'm' 'v' 'e' 'x']], .badData)
  else if type = fcc 't' 'r' 'a' 'k' then
    some ([[fcc 't' 'k' 'h' 'd'], [fcc 'e' 'd' 't' 's'], [fcc 'u' 'd' 't' 'a'], [fcc 't' 'r' 'e' 'f'],
      [fcc 't' 'r' 'g' 'r'], [fcc 'm' 'd' 'i' 'a'], [fcc 'm' 'e' 't' 'a'], [fcc 'm' 'e' 'c' 'o']], .badData)
  else if type = fcc 'm' 'd' 'i' 'a' then
    some ([[fcc 'm' 'd' 'h' 'd'], [fcc 'e' 'l' 'n' 'g'], [fcc 'h' 'd' 'l' 'r'], [fcc 'm' 'i' 'n' 'f']], .badData)
  else if type = fcc 'm' 'i' 'n' 'f' then
    some ([[fcc 'm' 'd' 'h' 'd', fcc 'v' 'm' 'h' 'd', fcc 's' 'm' 'h' 'd', fcc 'h' 'm' 'h' 'd'],
      [fcc 'd' 'i' 'n' 'f'], [fcc 's' 't' 'b' 'l']], .badData)
  else none

/-- Whether the field for this member is still free: the tests in the `addAtom` functions above. -/
def vacant (gs : List (List Nat)) (old : List Tree) (type : Nat) : Bool :=
  gs.all fun g => !(g.contains type && old.any fun x => g.contains x.type)

/-! ## Writing -/

mutual

/-- `calculateSize`: UnknownAtom.c 54-68, FreeSpaceAtom.c 60-73, and in the containers
`MP4CalculateBaseAtomFieldSize` and `ADD_ATOM_LIST_SIZE`: MP4Impl.h 446-464. -/
def size : Tree → Nat
  | .leaf type _ data => w32((if type = typeUuid then 24 else 8) + data.length)
  | .node _ cs => sizes 8 cs

/-- The loop of `ADD_ATOM_LIST_SIZE`. -/
def sizes (n : Nat) : List Tree → Nat
  | [] => n
  | c :: cs => sizes w32(n + size c) cs

end

mutual

/-- `serialize`: UnknownAtom.c 34-52, FreeSpaceAtom.c 43-58, and in the containers
`MP4SerializeCommonBaseAtomFields` (which asserts that the type is not 0) and `SERIALIZE_ATOM_LIST`:
MP4Impl.h 543-568. -/
def ser : Tree → W
  | .leaf type uuid data =>
    if type = 0 then W.bad else
    serBase (size (.leaf type uuid data)) type ;; (if type = typeUuid then putBytes uuid else W.skip) ;;
      putBytes data ;; W.assertFull
  | .node type cs => serBase (size (.node type cs)) type ;; sers cs ;; W.assertFull

/-- The loop of `SERIALIZE_ATOM_LIST`. -/
def sers : List Tree → W
  | [] => W.skip
  | c :: cs => nested (size c) (ser c) ;; sers cs

end

/-! ## Reading -/

mutual

/-- `createFromInputStream`: UnknownAtom.c 70-94, FreeSpaceAtom.c 75-104, and for a container the loop
below with the test after it. `size - bytesRead` is a `u32` difference. The first argument bounds the
number of nested calls; it is the number of bytes of the stream and never runs out. -/
def body : Nat → Hdr → P Tree
  | 0, _ => P.bad
  | n + 1, h => match groups h.type with
    | none => do
      let r ← P.bytesRead
      let d ← getBytes w32(h.size + (4294967296 - r))
      pure (.leaf h.type h.uuid d)
    | some (gs, e) => do
      let cs ← children n h.size gs e []
      let r ← P.bytesRead
      if r ≠ h.size then P.fail .badData else pure (.node h.type cs)

/-- The loop of `PARSE_ATOM_INCLUDES`: MP4Impl.h 605-621. `old` are the members read so far. -/
def children : Nat → Nat → List (List Nat) → Err → List Tree → P (List Tree)
  | 0, _, _, _, _ => P.bad
  | n + 1, size, gs, e, old => fun s =>
    if s.read < size then
      match parseAtom (body n) s.rest with
      | .ok (c, h, r) =>
        if isFree h.type then children n size gs e old ⟨r, w32(s.read + h.size)⟩
        else if vacant gs old c.type then children n size gs e (old ++ [c]) ⟨r, w32(s.read + h.size)⟩
        else .err e
      | .err e => .err e
      | .ub => .ub
    else .ok (old, s)

end

/-- `MP4ParseAtom`: MP4Atoms.c 901-904. -/
def parse (inp : Bytes) : Res (Tree × Hdr × Bytes) := parseAtom (body inp.length) inp

end Verif.Tree
