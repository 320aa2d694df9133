import Verif.Spec.Box

/-!
# Specification of item references
-/

namespace Verif.Iref

/-- The calls of an application: one reference is added to those of an item and a type, or several at once. -/
inductive Call where
  | one (item type to : Nat)
  | many (item type : Nat) (to : List Nat)
  deriving DecidableEq, Repr

def Call.pair : Call → Nat × Nat
  | .one i t _ => (i, t)
  | .many i t _ => (i, t)

def Call.targets : Call → List Nat
  | .one _ _ to => [to]
  | .many _ _ to => to

/-- The references of an item and a type, in the order in which they were added. -/
def references (calls : List Call) (p : Nat × Nat) : List Nat :=
  (calls.filter fun c => c.pair == p).flatMap Call.targets

/-- The pairs of items and types, by their first call. -/
def pairs : List Call → List (Nat × Nat)
  | [] => []
  | c :: cs => c.pair :: (pairs cs).filter fun p => p != c.pair

/-- Several references are added only as the first ones of their item and type, and never none. -/
def Proper (calls : List Call) : Prop :=
  ∀ a c b, calls = a ++ c :: b → match c with
    | .one _ _ _ => True
    | .many i t to => to ≠ [] ∧ references a (i, t) = []

/-- The count has 16 bits. -/
def Bounded (calls : List Call) : Prop := ∀ p, (references calls p).length < 65536

/-- One list of references: the type is that of the box. -/
structure Group where
  type : Nat
  item : Nat
  ids : List Nat
  deriving DecidableEq, Repr

def groups (calls : List Call) : List Group := (pairs calls).map fun p => ⟨p.2, p.1, references calls p⟩

/-- The width of item IDs. -/
def idBytes (version : Nat) : Nat := if version = 0 then 2 else 4

def layoutGroup (version : Nat) (g : Group) : Bytes :=
  box g.type (be (idBytes version) g.item ++ be 2 g.ids.length ++ g.ids.flatMap (be (idBytes version)))

/-- The `iref` box. -/
def layout (version : Nat) (l : List Group) : Bytes :=
  fullBox (fcc 'i' 'r' 'e' 'f') version 0 (l.flatMap (layoutGroup version))

/-- Values in the range of their fields. -/
structure Fits (version : Nat) (l : List Group) : Prop where
  type : ∀ g ∈ l, 0 < g.type ∧ g.type < 2 ^ 32 ∧ g.type ≠ fcc 'f' 'r' 'e' 'e' ∧ g.type ≠ fcc 's' 'k' 'i' 'p'
  item : ∀ g ∈ l, g.item < 256 ^ idBytes version
  ids : ∀ g ∈ l, ∀ i ∈ g.ids, i < 256 ^ idBytes version
  count : ∀ g ∈ l, g.ids.length < 65536
  size : (layout version l).length < 2 ^ 32

/-- The references of an item and a type in a file: those of the first list for them. -/
def listed (l : List Group) (item type : Nat) : List Nat :=
  match l.find? fun g => g.item == item && g.type == type with
  | some g => g.ids
  | none => []

end Verif.Iref
