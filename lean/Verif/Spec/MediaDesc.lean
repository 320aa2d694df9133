import Verif.Model.MediaDesc
import Verif.Spec.SampleDesc

/-!
# The descriptions of a media
-/

namespace Verif.Mds

open Verif.Ent Verif.Descr Verif.Sde

variable {α : Type}

/-- A description: one whose boxes the library sees, or one of a type that it does not know. -/
inductive Item (α : Type) where
  | sample (s : Sample (Bx α))
  | raw (type : Nat) (reserved : Bytes) (dref : Nat) (data : Bytes)

/-- The bytes in a handle and in a file. -/
def Item.bytes : Item α → Bytes
  | .sample s => s.bytes
  | .raw t r d data => rawBytes t r d data

/-- The number of the data reference. -/
def Item.dref : Item α → Nat
  | .sample s => s.dref
  | .raw _ _ d _ => d

def Item.type : Item α → Nat
  | .sample s => s.type
  | .raw t _ _ _ => t

/-- All parts can be written and read. -/
def Item.Ok (C : Class α) : Item α → Prop
  | .sample s => s.Ok (boxes C) ∧ s.Typed
  | .raw t r d data => RawOk t r d data

/-- The first box with an elementary stream descriptor has this one. -/
def Item.Es (i : Item α) (e : Es) : Prop :=
  ∃ s pre post v f, i = .sample s ∧ s.kids = pre ++ esdsKid v f e :: post ∧
    (∀ k ∈ pre, k.type ≠ fcc 'e' 's' 'd' 's') ∧ EsdsOk v f e

/-- There is none. -/
def Item.NoEs : Item α → Prop
  | .sample s => ∀ k ∈ s.kids, k.type ≠ fcc 'e' 's' 'd' 's'
  | .raw .. => True

/-- The entry in memory. -/
def Item.entry : Item α → Any (Bx α)
  | .sample s => s.entry
  | .raw t r d data => .generic ⟨t, r, d, data, []⟩

/-- The table has these descriptions, in this order. -/
structure Holds (C : Class α) (t : Table α) (l : List (Item α)) : Prop where
  entries : t.stsd.entries = l.map Item.entry
  ok : ∀ i ∈ l, i.Ok C

end Verif.Mds
