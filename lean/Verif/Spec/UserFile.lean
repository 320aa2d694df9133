import Verif.Props.C38
import Verif.Model.UserFile
import Verif.Spec.Box

/-!
# Specification of user data in files
-/

namespace Verif.UserData

/-- An application changes the user data, or writes the file and reads it again. -/
inductive Act where
  | op (o : Op)
  | file

def ops (acts : List Act) : List Op :=
  acts.filterMap fun a => match a with
    | .op o => some o
    | .file => none

/-- The user data after the acts. -/
def act (other : Nat → Bool) (l : List Record) : Act → Res (List Record)
  | .op o => .ok (after l o)
  | .file => (write l).bind fun bytes => (parseAtom (parse other) bytes).bind fun r => .ok r.1

def acted (other : Nat → Bool) : List Act → List Record → Res (List Record)
  | [], l => .ok l
  | a :: as, l => (act other l a).bind (acted other as)

/-- A type for user data: a number of 32 bits that is not used for boxes of another kind. -/
def Free (other : Nat → Bool) (t : Nat) : Prop :=
  t < 2 ^ 32 ∧ t ≠ fcc 'u' 'u' 'i' 'd' ∧ t ≠ fcc 'f' 'r' 'e' 'e' ∧ t ≠ fcc 's' 'k' 'i' 'p' ∧ other t = false

/-- The bytes a call adds to the file. -/
def cost : Op → Nat
  | .add _ d => 8 + d.length
  | .delete _ _ => 0

/-- Calls with types for user data, and of data that fits a box. -/
structure Fits (other : Nat → Bool) (os : List Op) : Prop where
  types : ∀ t d, Op.add t d ∈ os → Free other t
  size : 8 + (os.map cost).sum < 2 ^ 32

/-- The box: the items of each type together, the types in the order of their first addition. -/
def layout (os : List Op) : Bytes :=
  box (fcc 'u' 'd' 't' 'a') ((types os).flatMap fun t => (kept t os).flatMap fun d => box t d)

/-- The questions for the items of a type are answered by the list. -/
def Answers (l : List Record) (t : Nat) (ds : List Bytes) : Prop :=
  entryCount l t = .ok ds.length ∧
  (∀ k d, ds[k]? = some d → item l t (k + 1) = .ok d ∧ foreign l t (k + 1) = .ok (t, d)) ∧
  (∀ k, k = 0 ∨ ds.length < k → item l t k = .err .badParam ∧ foreign l t k = .err .badParam)

end Verif.UserData
