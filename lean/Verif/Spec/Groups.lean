import Verif.Model.Groups
import Verif.Props.C21
import Verif.Props.C22

/-!
# Sample groups of a track

ISO/IEC 14496-12, 8.9: for each grouping type a sample has one group description or none. Descriptions are numbered from 1;
0 is for none. In a fragment, numbers above 65536 are for the descriptions of the fragment, and the others for those of
the movie.
-/

namespace Verif.Grps

/-- The groups of a track: the number of samples, and for each grouping type the descriptions and the numbers of the
samples. A type may have neither. -/
structure Groups where
  count : Nat
  descs : Nat → Option (List Bytes)
  maps : Nat → Option (List Nat)

def none' : Groups := ⟨0, fun _ => none, fun _ => none⟩

def update {β : Type} (f : Nat → β) (type : Nat) (b : β) : Nat → β := fun x => if x = type then b else f x

/-- The descriptions of a type. -/
def Groups.list (a : Groups) (type : Nat) : List Bytes := (a.descs type).getD []

/-- The numbers of all samples. -/
def Groups.cells (a : Groups) (type : Nat) : List Nat := (a.maps type).getD (List.replicate a.count 0)

/-! ## Calls -/

/-- More samples; a new description; a description for `n` samples from one on (counted from the end if negative). -/
inductive Op
  | samples (n : Nat)
  | desc (type : Nat) (d : Bytes)
  | map (type group : Nat) (index : Int) (n : Nat)

/-- No description is empty or there twice. -/
def Groups.addDesc (a : Groups) (type : Nat) (d : Bytes) : Groups :=
  { a with descs := update a.descs type (some (if d = [] ∨ d ∈ a.list type then a.list type else a.list type ++ [d])) }

def Groups.more (a : Groups) (n : Nat) : Groups :=
  { a with count := a.count + n, maps := fun type => (a.maps type).map (· ++ List.replicate n 0) }

/-- The samples of a call are there. -/
def Groups.There (a : Groups) (index : Int) (n : Nat) : Prop := Sbgp.first a.count index + n ≤ a.count

instance (a : Groups) (index : Int) (n : Nat) : Decidable (a.There index n) := by unfold Groups.There; infer_instance

def Groups.setCells (a : Groups) (type group : Nat) (index : Int) (n : Nat) : Groups :=
  { a with maps := update a.maps type (some (
      if a.There index n then Mem.overwrite (a.cells type) (Sbgp.first a.count index).toNat (List.replicate n group)
      else a.cells type)) }

/-- In a movie the description must be there. -/
def Groups.Known (a : Groups) (type group : Nat) : Prop := (a.descs type).isSome ∧ group ≤ (a.list type).length

instance (a : Groups) (type group : Nat) : Decidable (a.Known type group) := by unfold Groups.Known; infer_instance

/-- In a movie or, with `frag`, in a fragment. -/
def Groups.apply (frag : Bool) (a : Groups) : Op → Groups
  | .samples n => a.more n
  | .desc type d => a.addDesc type d
  | .map type group index n => if frag ∨ a.Known type group then a.setCells type group index n else a

/-- Fewer than 2^28 samples; numbers of the C types; no sample before the first. -/
def Groups.Valid (a : Groups) : Op → Prop
  | .samples n => a.count + n < 268435456
  | .desc .. => True
  | .map _ _ index n => -(a.count : Int) ≤ index ∧ index < 2147483648 ∧ n < 2147483648

def AllValid (frag : Bool) : Groups → List Op → Prop
  | _, [] => True
  | a, o :: os => a.Valid o ∧ AllValid frag (a.apply frag o) os

/-- The calls of the library. A refused call is no reason to stop. -/
def step (junk : Nat → Nat) (frag : Bool) (t : Tab) : Op → Res Tab
  | .samples n => addSamples junk t n
  | .desc type d => .ok (addDesc t type d).1
  | .map type group index n =>
    (if frag then mapIn junk true false t type group index n else map junk false t type group index n).bind fun r => .ok r.1

def empty : Tab := ⟨[], [], 0, []⟩

/-! ## The state of the library -/

/-- The boxes hold the groups. -/
structure Rep (t : Tab) (a : Groups) : Prop where
  count : t.count = a.count
  small : a.count < 268435456
  descs : ∀ type, find type t.descs = a.descs type
  boxes : ∀ p ∈ t.maps, ∃ L, Sbgp.Rep p.2 L ∧ L.length = a.count
  maps : ∀ type, match find type t.maps with
    | none => a.maps type = none
    | some s => ∃ L, a.maps type = some L ∧ Sbgp.Rep s L

/-! ## Meaning -/

/-- The description with a number. -/
def nameIn (ds : List Bytes) : Nat → Option Bytes
  | 0 => none
  | g + 1 => ds[g]?

/-- The descriptions of all samples. -/
def Groups.names (a : Groups) (type : Nat) : List (Option Bytes) := (a.cells type).map (nameIn (a.list type))

/-- No sample has a number without a description. -/
def Groups.Sound (a : Groups) : Prop := ∀ type, ∀ g ∈ a.cells type, g ≤ (a.list type).length

/-- A fragment: its description boxes, its mapping boxes, and the sample counts of its runs. -/
structure Piece where
  descs : List (Nat × List Bytes)
  maps : List (Nat × List Nat)
  runs : List Nat

def Piece.total (p : Piece) : Nat := p.runs.foldl (· + ·) 0

/-- The first box of a type. -/
def look {β : Type} (l : List (Nat × List β)) (type : Nat) : List β := ((l.find? fun x => x.1 = type).map (·.2)).getD []

/-- The description of a sample of a fragment, `ds` being those of the movie. -/
def Piece.nameOf (p : Piece) (ds : List Bytes) (type g : Nat) : Option Bytes :=
  if g < 65536 then nameIn ds g else nameIn (look p.descs type) (g - 65536)

/-- The descriptions of all its samples: those behind the last of a mapping have none. -/
def Piece.names (p : Piece) (ds : List Bytes) (type : Nat) : List (Option Bytes) :=
  (look p.maps type).map (p.nameOf ds type) ++ List.replicate (p.total - (look p.maps type).length) none

/-- The descriptions of a type in the movie after the fragment: those before, and behind them each that is not empty and not
yet there, in the order of the boxes. -/
def Piece.after (p : Piece) (D : Nat → Option (List Bytes)) (type : Nat) : Option (List Bytes) :=
  let more := (p.descs.filter fun x => x.1 = type).flatMap (·.2)
  if D type = none ∧ more = [] then none
  else some (more.foldl (fun ds d => if d = [] ∨ d ∈ ds then ds else ds ++ [d]) ((D type).getD []))

/-- A fragment as it should be, `D` being the descriptions of the movie: one mapping for a type, for not more samples than
there are; the descriptions are there, in the movie or in the fragment, and not empty. -/
structure Piece.Fits (p : Piece) (D : Nat → Option (List Bytes)) : Prop where
  once : (p.maps.map (·.1)).Nodup
  length : ∀ m ∈ p.maps, m.2.length ≤ p.total
  type : ∀ m ∈ p.maps, (D m.1).isSome ∨ look p.descs m.1 ≠ []
  movie : ∀ m ∈ p.maps, ∀ g ∈ m.2, g < 65536 → g ≤ ((D m.1).getD []).length
  own : ∀ m ∈ p.maps, ∀ g ∈ m.2, 65536 < g → ∃ d, d ≠ [] ∧ nameIn (look p.descs m.1) (g - 65536) = some d

/-- Fragments that fit one after the other, the descriptions of all their samples, and the number of their samples. -/
def AllFit : (Nat → Option (List Bytes)) → List Piece → Prop
  | _, [] => True
  | D, p :: ps => p.Fits D ∧ AllFit (p.after D) ps

def allNames (type : Nat) : (Nat → Option (List Bytes)) → List Piece → List (Option Bytes)
  | _, [] => []
  | D, p :: ps => p.names ((D type).getD []) type ++ allNames type (p.after D) ps

def allAfter : (Nat → Option (List Bytes)) → List Piece → Nat → Option (List Bytes)
  | D, [] => D
  | D, p :: ps => allAfter (p.after D) ps

def allTotal (ps : List Piece) : Nat := (ps.map Piece.total).foldl (· + ·) 0

/-- The boxes of a fragment hold it. -/
def AllRep : List (Nat × Sbgp.Sbgp) → List (Nat × List Nat) → Prop
  | [], [] => True
  | x :: xs, y :: ys => (x.1 = y.1 ∧ Sbgp.Rep x.2 y.2) ∧ AllRep xs ys
  | _, _ => False

def Holds (f : Tab) (p : Piece) : Prop := f.descs = p.descs ∧ AllRep f.maps p.maps

/-- Fragments one after the other. -/
def mergeAll (junk : Nat → Nat) (t : Tab) (fs : List (Tab × List Nat)) : Res Tab :=
  runAll (fun t f => (merge junk t f).bind fun r => .ok r.1) t fs

end Verif.Grps
