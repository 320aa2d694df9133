import Verif.Props.C25
import Verif.Model.AuxInfo

/-!
# Specification of sample auxiliary information
-/

namespace Verif.AuxInfo

open Media (Media Supplied Step)

/-- What may happen to a media: what happens in C25; a kind of auxiliary information is set up, with a size for all
samples or 0; information is added for the next samples, one piece each; information is read. -/
inductive Call where
  | media (s : Step)
  | setup (k : Key) (default : Nat)
  | info (k : Key) (pieces : List Bytes) (sizes : Batch) (junk : Nat → UInt8)
  | look (k : Key) (n : Nat)

def samples (h : List Call) : List Supplied :=
  h.flatMap fun c => match c with | .media s => s.samples | _ => []

/-- All bytes added, in order. -/
def bytes (h : List Call) : Bytes :=
  h.flatMap fun c => match c with | .media s => s.data | .info _ ps _ _ => ps.flatten | _ => []

def hasDesc (h : List Call) : Bool :=
  h.any fun c => match c with | .media s => s.brings | _ => false

def setups (h : List Call) : List (Key × Nat) :=
  h.filterMap fun c => match c with | .setup k d => some (k, d) | _ => none

/-- The pieces of information of a kind, in order. -/
def infos (h : List Call) (k : Key) : List Bytes :=
  h.flatMap fun c => match c with | .info k' ps _ _ => if k' = k then ps else [] | _ => []

/-- Kinds either have a type and parameter or not. -/
def Key.Ok (k : Key) : Prop := k.flag = 1 ∨ k = ⟨0, 0, 0⟩

/-- Correct use: a kind is set up once and before it is used, the sizes are those of the pieces, and only what exists is
read. -/
def Valid (drefs : Nat) (past : List Call) : Call → Prop
  | .media s => s.Valid drefs (samples past).length (hasDesc past)
  | .setup k d => k.Ok ∧ k ∉ (setups past).map Prod.fst ∧ d < 256
  | .info k ps sizes _ => ∃ d, (k, d) ∈ setups past ∧ sizes.values = ps.map List.length ∧
      (∀ p ∈ ps, p.length < 256 ∧ (d ≠ 0 → p.length = d)) ∧ (ps ≠ [] → hasDesc past = true)
  | .look k n => k ∈ (setups past).map Prod.fst ∧ 1 ≤ n ∧ n ≤ (samples past).length ∧ n ≤ (infos past k).length

def AllValid (drefs : Nat) : List Call → List Call → Prop
  | _, [] => True
  | past, c :: cs => Valid drefs past c ∧ AllValid drefs (past ++ [c]) cs

/-- The box with the offsets: `version` 0 or 1 chooses the width of the offsets. -/
def layoutOffsets (version flags type param : Nat) (offsets : List Nat) : Bytes :=
  fullBox (fcc 's' 'a' 'i' 'o') version flags
    ((if flags % 2 = 1 then be 4 type ++ be 4 param else []) ++
      (be 4 offsets.length ++ offsets.flatMap (be (if version = 0 then 4 else 8))))

end Verif.AuxInfo
