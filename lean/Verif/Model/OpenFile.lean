import Verif.Model.Movie
import Verif.Model.ItemFile
import Verif.Model.FragSeq

/-!
# Opening a whole file

`parseMovie` (MP4Movies.c 100-236), with `MergeMovieFragments` (238-277) and `MergeMovieData` (279-342).

What is in the boxes other than media data is a parameter (`Kinds`): the classes are in the other models. Simplifications: the file is one stream of bytes;
`setupTracks`, whose result is ignored, is left out; of what is relocated there are the tracks of the movie and the items of the meta box of the file;
list entries that are NULL are left out.
-/

namespace Verif.OpenFile

open Iloc (Item)

/-- MP4Atoms.h 75, 107, 120, 126 and MJ2Atoms.h 36-38. -/
def typeMoov : Nat := 0x6d6f6f76
def typeMoof : Nat := 0x6d6f6f66
def typeMeta : Nat := 0x6d657461
def typeMeco : Nat := 0x6d65636f
def typeSgnt : Nat := 0x6a502020
def typeFtyp : Nat := 0x66747970
def typeJp2h : Nat := 0x6a703268

/-- The classes of the boxes in a file, other than media data. -/
structure Kinds (α : Type) where
  /-- `createFromInputStream` of the class that the header calls for. -/
  read : Hdr → P α
  /-- `sequence_number` in the header of a fragment, if it has a header. -/
  number : α → Option Nat
  /-- Whether a fragment has no tracks. -/
  bare : α → Bool
  /-- `mergeFragments` of the fragment at this place of the file, into the movie. -/
  join : Nat → α → α → Res α
  /-- `calculateDuration` of the movie. -/
  duration : α → Res α
  /-- The tracks of a movie. -/
  tracks : α → List Movie.Track
  /-- The items of a meta box. -/
  items : α → List Item

/-- The fields of `MP4PrivateMovieRecord` for the boxes of the file. `mdats` is `mdat`, then `mdatList`; `moofs` is `movieFragments`, each with
`streamOffset`. -/
structure Boxes (α : Type) where
  moov : Option α := none
  ftyp : Option α := none
  sgnt : Option α := none
  jp2h : Option α := none
  info : Option α := none
  meco : Option α := none
  mdats : List Mdat.T := []
  moofs : List (Nat × α) := []
  deriving DecidableEq, Repr

/-- A box as read. -/
inductive Top (α : Type)
  | mdat (d : Mdat.T)
  | other (x : α)

/-- The class of a box in the file that begins at `pos`: MP4Atoms.c 163-740. -/
def top {α : Type} (K : Kinds α) (pos : Nat) (h : Hdr) : P (Top α) :=
  if h.type = Mdat.typeMdat then Top.mdat <$> Mdat.parseBody pos h else Top.other <$> K.read h

/-- `if(moov->x) BAILWITHERROR(MP4BadDataErr) else moov->x = anAtomPtr`. -/
def once {α : Type} (o : Option α) (x : α) : Res (Option α) :=
  match o with
  | none => .ok (some x)
  | some _ => .err .badData

/-- The `switch` in the loop: MP4Movies.c 125-202. Other boxes are dropped. -/
def put {α : Type} (inPlace : Bool) (pos type : Nat) (t : Top α) (o : Boxes α) : Res (Boxes α) :=
  match t with
  | .mdat d => if inPlace || d.dataSize = 0 then .ok o else .ok { o with mdats := o.mdats ++ [d] }
  | .other x =>
    if type = typeMoov then (once o.moov x).bind fun v => .ok { o with moov := v }
    else if type = typeMoof then .ok { o with moofs := o.moofs ++ [(pos, x)] }
    else if type = typeFtyp then (once o.ftyp x).bind fun v => .ok { o with ftyp := v }
    else if type = typeSgnt then (once o.sgnt x).bind fun v => .ok { o with sgnt := v }
    else if type = typeJp2h then (once o.jp2h x).bind fun v => .ok { o with jp2h := v }
    else if type = typeMeta then (once o.info x).bind fun v => .ok { o with info := v }
    else if type = typeMeco then (once o.meco x).bind fun v => .ok { o with meco := v }
    else .ok o

/-- The loop: MP4Movies.c 114-204. The end of the stream is looked for only after a box. Every box takes up some bytes, so `n` above the length of the
file is enough. -/
def loop {α : Type} (K : Kinds α) (inPlace : Bool) (file : Bytes) : Nat → Nat → Boxes α → Res (Boxes α)
  | 0, _, _ => .err .internalErr
  | n + 1, pos, o =>
    match parseAtom (top K pos) (file.drop pos) with
    | .err .eof => .ok o
    | .err e => .err e
    | .ub => .ub
    | .ok (t, h, r) =>
      (put inPlace pos h.type t o).bind fun o' =>
      if r.length = 0 then .ok o' else loop K inPlace file n (file.length - r.length) o'

/-- The loop and the test after it: MP4Movies.c 114-206. -/
def boxes {α : Type} (K : Kinds α) (inPlace : Bool) (file : Bytes) : Res (Boxes α) :=
  (loop K inPlace file (file.length + 1) 0 {}).bind fun o =>
  if o.moov.isNone && o.ftyp.isNone then .err .badData else .ok o

/-- `mergeFragments` of a fragment, into the movie, which is used for each track without a test: MovieFragmentAtom.c 74-109. -/
def joinOne {α : Type} (K : Kinds α) (x : Nat × α) : Option α → Res (Option α)
  | some m => (K.join x.1 x.2 m).bind fun m' => .ok (some m')
  | none => if K.bare x.2 then .ok none else .ub

/-- `MergeMovieFragments`: MP4Movies.c 238-277. At the end the movie is used without a test. -/
def joinAll {α : Type} (K : Kinds α) (o : Boxes α) : Res (Boxes α) :=
  if o.moofs.isEmpty then .ok o else
  (FragSeq.merge (joinOne K) (o.moofs.map fun x => ⟨K.number x.2, x⟩) o.moov).bind fun m =>
  match m with
  | none => .ub
  | some m => (K.duration m).bind fun m' => .ok { o with moov := some m', moofs := [] }

/-- A file that was opened: `data` is the media data; `tracks` and `items` are those of the movie and of the meta box, after relocation. -/
structure Opened (α : Type) where
  boxes : Boxes α
  data : Option Mdat.T
  tracks : List Movie.Track
  items : List Item

/-- `MergeMovieData`: MP4Movies.c 210-214 and 279-342, by Model/Movie and Model/ItemFile. -/
def mergeData {α : Type} (K : Kinds α) (junk : Nat → Nat → UInt8) (o : Boxes α) : Res (Opened α) :=
  match o.mdats with
  | [] => .ok ⟨o, none, (o.moov.map K.tracks).getD [], (o.info.map K.items).getD []⟩
  | first :: more =>
    (Movie.merge junk first more ((o.moov.map K.tracks).getD [])).bind fun r =>
    (ItemFile.merge junk first more ((o.info.map K.items).getD [])).bind fun q =>
    .ok ⟨o, some r.1, r.2, q.2⟩

/-- `parseMovie`: MP4Movies.c 100-236. `junk` is what memory holds. -/
def openFile {α : Type} (K : Kinds α) (junk : Nat → Nat → UInt8) (inPlace : Bool) (file : Bytes) : Res (Opened α) :=
  (boxes K inPlace file).bind fun o => (joinAll K o).bind (mergeData K junk)

end Verif.OpenFile
