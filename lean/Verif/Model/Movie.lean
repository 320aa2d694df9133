import Verif.Model.Stco
import Verif.Model.Mdat

/-!
# Writing a movie: LocalPutMovieIntoHandle, MP4PutMovieIntoHandle, MP4WriteMovieToFile
(MP4MovieFile.c 33-339), the relocation of all tracks (MovieAtom.c 536-572), and merging media data
boxes: MergeMovieData (MP4Movies.c 279-342)

Simplifications: the boxes before the movie box (prepended data, or signature, file type and `jp2h`
boxes) are given as their bytes, and so is everything in the movie box except the chunk offset
boxes, since none of it depends on the values of the chunk offsets. There is no metadata box and no
auxiliary information offset box: those are relocated by code of their own, which is not modelled
here. `calculateDuration` and `MP4MovieCreateDescriptors`, which run first, are not modelled.
-/

namespace Verif.Movie

/-- Apply a function that may fail to every element, in order. -/
def mapRes {α β : Type} (f : α → Res β) : List α → Res (List β)
  | [] => .ok []
  | a :: as => (f a).bind fun b => (mapRes f as).bind fun bs => .ok (b :: bs)

/-- The tables of a track that relocation uses: data reference index of each sample description,
flags of each data reference, sample-to-chunk entries, chunk offsets; and the version and flags of
the chunk offset box. -/
structure Track where
  stsd : List Nat
  dref : List Nat
  es : List StscEntry
  stco : Stco.Stco
  version : Nat
  flags : Nat
  deriving DecidableEq, Repr

/-- `mdatMoved` of one track: TrackAtom.c 134-163, MediaAtom.c 74-89, MediaInformationAtom.c
705-743. -/
def trackMoved (base stop : Nat) (delta : Int) (t : Track) : Res Track :=
  (Stco.trackMoved t.stsd t.dref t.es t.stco base stop delta).bind fun stco =>
    .ok { t with stco := stco }

/-- `mdatMoved` of the movie box: MovieAtom.c 536-572. -/
def moved (ts : List Track) (base stop : Nat) (delta : Int) : Res (List Track) :=
  mapRes (trackMoved base stop delta) ts

/-- The serialized movie box, piece by piece: bytes that do not depend on chunk offsets, or the
chunk offset box of a track (by its index). -/
inductive Piece
  | raw (bytes : Bytes)
  | offsets (track : Nat)
  deriving DecidableEq, Repr

/-- What `calculateSize` stores in a chunk offset box: type and size. -/
def sized (t : Track) : Res (Nat × Nat) :=
  (Stco.used t.stco).bind fun offs => .ok (Stco.boxType offs, Stco.calcSize offs)

/-- Size of a piece, after `calculateSize`. -/
def pieceSize (sizes : List (Nat × Nat)) : Piece → Res Nat
  | .raw bs => .ok bs.length
  | .offsets i => match sizes[i]? with
    | some s => .ok s.2
    | none => .ub

/-- Bytes of a piece; the chunk offset box is written with the stored type and size. -/
def pieceBytes (sizes : List (Nat × Nat)) (ts : List Track) : Piece → Res Bytes
  | .raw bs => .ok bs
  | .offsets i => match sizes[i]?, ts[i]? with
    | some s, some t => (Stco.used t.stco).bind fun offs =>
        runW s.2 (Stco.serializeAs s.1 s.2 t.version t.flags offs)
    | _, _ => .ub

/-- `move_up`: lines 118-131. -/
def moveUp (pre moov mdatSize : Nat) : Nat :=
  if mdatSize = 1 then w32(w32(w32(pre + moov) + 8) + 8) else w32(w32(pre + moov) + 8)

/-- `LocalPutMovieIntoHandle` without the media data: lines 45-262. Sizes are computed first, then
the offsets are moved, the boxes written, and the offsets moved back. `move_up` is a `u32` passed as
`s32`. Result: the bytes and the tracks afterwards. -/
def putMovie (pre : Bytes) (pieces : List Piece) (ts : List Track) (mdat : Mdat.T) (old64 : Nat) :
    Res (Bytes × List Track) :=
  (mapRes sized ts).bind fun sizes =>
  (mapRes (pieceSize sizes) pieces).bind fun ns =>
  (moved ts 0 mdat.dataSize
    (s32 (moveUp pre.length w32(ns.sum) (Mdat.calcSize mdat.dataSize old64).1))).bind fun ts1 =>
  (mapRes (pieceBytes sizes ts1) pieces).bind fun bss =>
  (moved ts1 (moveUp pre.length w32(ns.sum) (Mdat.calcSize mdat.dataSize old64).1)
    w64(mdat.dataSize + moveUp pre.length w32(ns.sum) (Mdat.calcSize mdat.dataSize old64).1)
    (- s32 (moveUp pre.length w32(ns.sum) (Mdat.calcSize mdat.dataSize old64).1))).bind fun ts2 =>
  .ok (pre ++ bss.flatten, ts2)

/-- `MP4WriteMovieToFile`: MP4MovieFile.c 281-339. -/
def writeFile (pre : Bytes) (pieces : List Piece) (ts : List Track) (mdat : Mdat.T) (old64 : Nat) :
    Res (Bytes × List Track) :=
  (putMovie pre pieces ts mdat old64).bind fun r =>
  (Mdat.writeToFile mdat old64).bind fun bs => .ok (r.1 ++ bs, r.2)

/-- `MP4PutMovieIntoHandle`: MP4MovieFile.c 274-278 and lines 126-129, 263-268. -/
def putHandle (pre : Bytes) (pieces : List Piece) (ts : List Track) (mdat : Mdat.T) (old64 : Nat) :
    Res (Bytes × List Track) :=
  if (Mdat.calcSize mdat.dataSize old64).1 = 1 then .err .notImplemented else
  (putMovie pre pieces ts mdat old64).bind fun r =>
  (Mdat.serialize mdat old64).bind fun bs => .ok (r.1 ++ bs, r.2)

/-- The loop of `MergeMovieData` over the further media data boxes: MP4Movies.c 314-333. `offset` is
a `u32`; `(s32)(mdat->dataSize - offset)` is the low half of a `u64` difference. `junk k` are the
contents of memory that the `k`-th reallocation finds. -/
def mergeLoop (junk : Nat → Nat → UInt8) : Nat → List Mdat.T → Mdat.T → List Track → Res (Mdat.T × List Track)
  | _, [], m, ts => .ok (m, ts)
  | k, s :: more, m, ts =>
    (moved ts w32(s.dataOffset) w64(s.dataSize + w32(s.dataOffset))
      (s32 w32(w64(m.dataSize + (18446744073709551616 - w32(s.dataOffset)))))).bind fun ts' =>
    (Mdat.addMdat (junk k) m s).bind fun m' =>
    mergeLoop junk (k + 1) more m' ts'

/-- `MergeMovieData`: MP4Movies.c 279-342, for a movie without metadata boxes: the first media data
box and the further ones, in the order of the file (empty ones were dropped, 141-142). Negating
`-2^31` overflows. Simplification: the code ignores an error of `mdatMoved` and continues with what
was relocated before the error; here the error is the result. -/
def merge (junk : Nat → Nat → UInt8) (mdat : Mdat.T) (more : List Mdat.T) (ts : List Track) :
    Res (Mdat.T × List Track) :=
  if w32(mdat.dataOffset) = 2147483648 then .ub else
  (moved ts w32(mdat.dataOffset) w64(mdat.dataSize + w32(mdat.dataOffset)) (- s32 w32(mdat.dataOffset))).bind fun ts' =>
  mergeLoop junk 0 more mdat ts'

end Verif.Movie
