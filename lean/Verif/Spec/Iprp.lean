import Verif.Model.Iprp
import Verif.Model.UserFile
import Verif.Spec.Entries
import Verif.Props.C36

/-!
# Specification of item properties in files
-/

namespace Verif.Iprp

open Verif.Ent

variable {α : Type}

/-- An application gives a property to an item, or writes the file and reads it again. -/
inductive Act (α : Type) where
  | add (p : Kid α) (item essential : Nat)
  | file

/-- The calls, without the files. -/
def gifts (acts : List (Act α)) : List (Kid α × Nat × Nat) :=
  acts.filterMap fun a => match a with
    | .add p item essential => some (p, item, essential)
    | .file => none

/-- The files written after the first call. -/
def files : List (Act α) → Nat
  | [] => 0
  | .file :: as => files as
  | .add _ _ _ :: as => (as.filter fun a => match a with | .file => true | _ => false).length

def act (C : Class α) (x : Option (T α)) : Act α → Res (Option (T α))
  | .add p item essential => addMetaItemProperty x p.val item essential
  | .file => reopen C x

/-- The item properties box after the acts. -/
def acted (C : Class α) : List (Act α) → Option (T α) → Res (Option (T α))
  | [], x => .ok x
  | a :: as, x => (act C x a).bind (acted C as)

/-- The properties of an item, in the order of the calls. -/
def given (item : Nat) (gs : List (Kid α × Nat × Nat)) : List α :=
  (gs.filter fun g => g.2.1 = item).map fun g => g.1.val

/-- Up to 127 properties that survive by themselves, for items with an ID of 16 bits, and a file of less than 4 GB. -/
structure Fits (C : Class α) (acts : List (Act α)) : Prop where
  props : ∀ g ∈ gifts acts, Survives C g.1.type g.1.val g.1.bytes ∧ ¬ Dropped g.1.type
  item : ∀ g ∈ gifts acts, g.2.1 < 2 ^ 16
  essential : ∀ g ∈ gifts acts, g.2.2 < 2
  count : (gifts acts).length ≤ 127
  size : 2 ^ 16 + 8 * files acts + ((gifts acts).map fun g => g.1.bytes.length).sum < 2 ^ 32

/-- The items that have properties, in the order of their first one. -/
def owners (gs : List (Kid α × Nat × Nat)) : List Nat :=
  gs.foldl (fun l g => if g.2.1 ∈ l then l else l ++ [g.2.1]) []

/-- The essential flags and the numbers, from 1, of the properties of an item. -/
def numbers (item : Nat) (gs : List (Kid α × Nat × Nat)) : List (Nat × Nat) :=
  (gs.zipIdx.filter fun g => g.1.2.1 = item).map fun g => (g.1.2.2, g.2 + 1)

/-- ISO/IEC 23008-12, 9.3, with items of 16 bits and associations of 8. -/
def assocLayout (gs : List (Kid α × Nat × Nat)) : Bytes :=
  fullBox (fcc 'i' 'p' 'm' 'a') 0 0 (be 4 (owners gs).length ++ (owners gs).flatMap fun i =>
    be 2 i ++ (be 1 (numbers i gs).length ++ (numbers i gs).flatMap fun a => be 1 (a.1 * 2 ^ 7 + a.2)))

/-- The container with all properties, the associations; before them an empty container for every file. -/
def layout (n : Nat) (gs : List (Kid α × Nat × Nat)) : Bytes :=
  box (fcc 'i' 'p' 'r' 'p') ((List.replicate n (box (fcc 'i' 'p' 'c' 'o') [])).flatten ++
    (box (fcc 'i' 'p' 'c' 'o') (gs.flatMap fun g => g.1.bytes) ++ assocLayout gs))

/-- Boxes of an unknown type, as properties. -/
def unknown : Class (Nat × Bytes) := ⟨UserData.parseItem fun _ => false, UserData.memberSize, UserData.putMember⟩

end Verif.Iprp
