import Verif.Model.Handle

/-!
# Specification for C02: what handle calls may do to the contents

Abstractly a handle is a string of bytes with a position in it: `hidden` bytes before the current
offset and the visible bytes `view` after it. `MP4GetHandleSize` reports the length of `view`.
-/

namespace Verif.Hdl.Spec

structure AHandle where
  hidden : List Cell
  view : List Cell
  deriving DecidableEq, Repr

/-- `ys` is `xs` shortened or lengthened: common positions are unchanged. -/
def SamePrefix (xs ys : List Cell) : Prop := ∀ i, i < xs.length → i < ys.length → xs[i]? = ys[i]?

/-- Changing the size to `n` keeps hidden bytes and the bytes that stay inside. -/
def Resized (a b : AHandle) (n : Nat) : Prop :=
  b.hidden = a.hidden ∧ b.view.length = n ∧ SamePrefix a.view b.view

/-- Moving the offset to `o`: the split point moves inside the same bytes; only an empty handle
can be moved past its end, which adds `o` fresh hidden bytes. -/
def Moved (a b : AHandle) (o : Nat) : Prop :=
  b.hidden.length = o ∧
  (a.hidden ++ a.view = b.hidden ++ b.view ∨
   (a.view = [] ∧ b.view = [] ∧ a.hidden = b.hidden.take a.hidden.length))

/-- Contents of handle `i` changed as `R` says, all others are untouched. -/
def Changes (σ σ' : List AHandle) (i : Nat) (R : AHandle → AHandle → Prop) : Prop :=
  σ'.length = σ.length ∧ (∀ j, j ≠ i → σ'[j]? = σ[j]?) ∧
    ∃ a b, σ[i]? = some a ∧ σ'[i]? = some b ∧ R a b

/-- What a successful call does. -/
def Effect (σ σ' : List AHandle) : Op → Option Nat → Prop
  | .new n _, r => r = none ∧ σ' = σ ++ [⟨[], List.replicate n (some 0)⟩]
  | .setSize i n _, r => r = none ∧ Changes σ σ' i (fun a b => Resized a b n)
  | .setOffset i o _, r => r = none ∧ Changes σ σ' i (fun a b => Moved a b o)
  | .cat d s _, r => r = none ∧ ∃ c, σ[s]? = some c ∧
      Changes σ σ' d (fun a b => b.hidden = a.hidden ∧ b.view = a.view ++ c.view)
  | .getSize i, r => σ' = σ ∧ ∃ a, σ[i]? = some a ∧ r = some a.view.length

/-- The calls the property speaks about, in a store with contents `σ`: distinct operands of a
concatenation, sizes plus offset below 4 GiB, offsets below 2 GiB, and no allocation failure in a
concatenation. -/
def Allowed (σ : List AHandle) : Op → Prop
  | .new n _ => n < 4294967296
  | .setSize i n _ => ∀ a, σ[i]? = some a → a.hidden.length + n < 4294967296
  | .setOffset _ o _ => o < 2147483648
  | .cat d s mem => d ≠ s ∧ mem = true ∧ ∀ a c, σ[d]? = some a → σ[s]? = some c →
      a.hidden.length + a.view.length + c.view.length < 4294967296
  | .getSize _ => True

/-- A recorded history `tr` (answer and contents after each call) follows the specification as
long as the calls are allowed ones. -/
def Follows (σ : List AHandle) : List Op → List (Res (Option Nat) × List AHandle) → Prop
  | [], tr => tr = []
  | op :: ops, tr => Allowed σ op →
    match tr with
    | (.ok r, σ') :: tr => Effect σ σ' op r ∧ Follows σ' ops tr
    | (.err _, σ') :: tr => σ' = σ ∧ Follows σ' ops tr
    | _ => False

end Verif.Hdl.Spec
