import Verif.Spec.Box

/-!
# Specification of entity groups
-/

namespace Verif.Grpl

inductive Call where
  | new (type id : Nat)
  | add (id entity : Nat)
  deriving DecidableEq, Repr

/-- A group: its type, its ID and its entities. -/
abbrev Group := Nat × Nat × List Nat

/-- The groups after the calls: a group is new if its ID is, and an entity goes to the group with the ID. -/
def step (l : List Group) : Call → List Group
  | .new type id => if id ∈ l.map (·.2.1) then l else l ++ [(type, id, [])]
  | .add id entity => l.map fun g => if g.2.1 = id then (g.1, g.2.1, g.2.2 ++ [entity]) else g

def groups (calls : List Call) : List Group := calls.foldl step []

/-- Whether a call succeeds after others. -/
def accepted (calls : List Call) : Call → Prop
  | .new _ id => ∀ g ∈ groups calls, g.2.1 ≠ id
  | .add id _ => ∃ g ∈ groups calls, g.2.1 = id

/-- An `EntityToGroupBox`; `data` is what a type of group may have behind the entities. -/
def layoutGroup (version flags : Nat) (g : Group) (data : Bytes) : Bytes :=
  fullBox g.1 version flags (be 4 g.2.1 ++ be 4 g.2.2.length ++ g.2.2.flatMap (be 4) ++ data)

/-- The `grpl` box. -/
def layout (l : List (Nat × Nat × Group × Bytes)) : Bytes :=
  box (fcc 'g' 'r' 'p' 'l') (l.flatMap fun x => layoutGroup x.1 x.2.1 x.2.2.1 x.2.2.2)

/-- Without versions and data. -/
def plain (l : List Group) : List (Nat × Nat × Group × Bytes) := l.map fun g => (0, 0, g, [])

/-- Values in the range of their fields. -/
structure Fits (l : List (Nat × Nat × Group × Bytes)) : Prop where
  version : ∀ x ∈ l, x.1 < 256 ∧ x.2.1 < 2 ^ 24
  type : ∀ x ∈ l, 0 < x.2.2.1.1 ∧ x.2.2.1.1 < 2 ^ 32 ∧ x.2.2.1.1 ≠ fcc 'f' 'r' 'e' 'e' ∧ x.2.2.1.1 ≠ fcc 's' 'k' 'i' 'p' ∧
    x.2.2.1.1 ≠ fcc 'u' 'u' 'i' 'd'
  id : ∀ x ∈ l, x.2.2.1.2.1 < 2 ^ 32
  entities : ∀ x ∈ l, ∀ e ∈ x.2.2.1.2.2, e < 2 ^ 32
  size : (layout l).length < 2 ^ 32

end Verif.Grpl
