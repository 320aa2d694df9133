import Verif.Core.Box

/-!
# Brands
MJ2FileTypeAtom.c, SegmentTypeAtom.c, TrackTypeAtom.c and the functions of MP4Movies.c on brands.

The three boxes have the same code up to the names of the members, except that the file type is a plain box and the
two others are full boxes.
-/

namespace Verif.Brand

/-- `ISOFileTypeAtom` (MJ2Atoms.h), `MP4SegmentTypeAtom` (MP4Atoms.h 2107-2121), `MP4TrackTypeAtom` (MP4Atoms.h
1628-1642). `itemCount` is the length of `compatibilityList`. The version and the flags are only in the two last. -/
structure S where
  version : Nat
  flags : Nat
  brand : Nat
  minor : Nat
  list : List Nat
  deriving DecidableEq, Repr

inductive Kind where
  | file | segment | track
  deriving DecidableEq, Repr

/-- The types (MP4Atoms.h 158-160, MJ2Atoms.h). -/
def Kind.type : Kind → Nat
  | .file => 0x66747970
  | .segment => 0x73747970
  | .track => 0x74747970

/-- `MP4CreateBaseAtom` or `MP4CreateFullAtom`: MJ2FileTypeAtom.c 213, SegmentTypeAtom.c 220, TrackTypeAtom.c 220. -/
def Kind.full : Kind → Bool
  | .file => false
  | _ => true

/-- `MJ2CreateFileTypeAtom`: MJ2FileTypeAtom.c 205-245. -/
def new : S := ⟨0, 0, 0, 0, []⟩

/-- `getBrand`: MJ2FileTypeAtom.c 87-93; `ISOGetMovieBrand`: MP4Movies.c 976-989. -/
def getBrand (s : S) : Nat × Nat := (s.brand, s.minor)

/-- `getStandard`: MJ2FileTypeAtom.c 95-111. -/
def getStandard (s : S) (standard : Nat) : Nat := if standard ∈ s.list then standard else 0

/-- `addStandard`: MJ2FileTypeAtom.c 113-131; `ISOSetMovieCompatibleBrand`: MP4Movies.c 962-974. -/
def addStandard (s : S) (standard : Nat) : S :=
  if getStandard s standard = 0 then { s with list := s.list ++ [standard] } else s

/-- `setBrand`: MJ2FileTypeAtom.c 133-152; `ISOSetMovieBrand`: MP4Movies.c 947-960. -/
def setBrand (s : S) (standard minor : Nat) : S :=
  let old := s.brand
  let s := { s with brand := standard, minor := minor }
  let s := if old ≠ 0 then addStandard s old else s
  addStandard s standard

/-- `ISOIsMovieCompatibleBrand`: MP4Movies.c 991-1007. -/
def isCompatible (s : S) (brand : Nat) : Res Unit :=
  if getStandard s brand ≠ brand then .err .notFound else .ok ()

/-- `calculateSize`: MJ2FileTypeAtom.c 71-85, SegmentTypeAtom.c 76-90, TrackTypeAtom.c 76-90. -/
def size (k : Kind) (s : S) : Nat :=
  w32((if k.full then 12 else 8) + 8 + s.list.length * 4)

/-- `serialize`: MJ2FileTypeAtom.c 44-69, SegmentTypeAtom.c 49-74, TrackTypeAtom.c 49-74. -/
def write (k : Kind) (s : S) : Res Bytes :=
  runW (size k s) ((if k.full then serFull (size k s) k.type s.version s.flags else serBase (size k s) k.type) ;;
    put32 s.brand ;; put32 s.minor ;; W.each put32 s.list ;; W.assertFull)

/-- The loop of `createFromInputStream`: MJ2FileTypeAtom.c 184-196. `bytesToRead` is a difference of unsigned
numbers, stored in a wider signed one. -/
def loop (size : Nat) : Nat → List Nat → P (List Nat)
  | 0, _ => P.bad
  | fuel + 1, l => do
    let br ← P.bytesRead
    let n := w32(size + (4294967296 - br))
    if n > 0 then
      if n < 4 then P.fail .badData
      else do
        let x ← get32
        loop size fuel (l ++ [x])
    else pure l

/-- `createFromInputStream`: MJ2FileTypeAtom.c 154-203, SegmentTypeAtom.c 159-210, TrackTypeAtom.c 159-210. -/
def parse (k : Kind) (h : Hdr) : P S := do
  let vf ← (if k.full then getVersionFlags else pure (0, 0) : P (Nat × Nat))
  let brand ← get32
  let minor ← get32
  let br ← P.bytesRead
  if w32(h.size + (4294967296 - br)) < 4 then P.fail .badData
  else do
    let n ← P.available
    let l ← loop h.size (n + 1) []
    pure ⟨vf.1, vf.2, brand, minor, l⟩

end Verif.Brand
