import Verif.Model.CodecDesc
import Verif.Spec.SampleDesc
import Verif.Props.C55
import Verif.Props.C55Hevc
import Verif.Props.C55Vvc

/-!
# Sample entries with decoder configurations
-/

namespace Verif.Cod

open Verif.Ent Verif.Sde Verif.Config

variable {α : Type}

/-! ## Boxes: ISO/IEC 14496-15, 5.4.2.1, 8.4.1.1, 11.3.1.1 -/

def avcKid (c : Avc) : Kid (Cx α) := ⟨fcc 'a' 'v' 'c' 'C', .avc c, Avc.layout c⟩

def hevcKid (c : Hevc) : Kid (Cx α) := ⟨fcc 'h' 'v' 'c' 'C', .hevc c, Hevc.layout c (c.arrays.take c.count)⟩

def vvcKid (c : Vvc) : Kid (Cx α) := ⟨fcc 'v' 'v' 'c' 'C', .vvc c, Vvc.layout c⟩

/-- The lengths of NAL units have `n + 1` bytes. -/
def vvnKid (version flags n : Nat) : Kid (Cx α) :=
  ⟨fcc 'v' 'v' 'n' 'C', .vvn version flags n, fullBox (fcc 'v' 'v' 'n' 'C') version flags (be 1 n)⟩

def codecTypes : List Nat := [fcc 'a' 'v' 'c' 'C', fcc 'h' 'v' 'c' 'C', fcc 'v' 'v' 'c' 'C', fcc 'v' 'v' 'n' 'C']

/-- A box is one of these with values that fit, or has another type. -/
inductive Known : Kid (Cx α) → Prop
  | avc {c : Avc} : Avc.Fits c → Known (avcKid c)
  | hevc {c : Hevc} : Hevc.Fits c → Known (hevcKid c)
  | vvc {c : Vvc} : Vvc.Fits c → Known (vvcKid c)
  | vvn {v f n : Nat} : v < 256 → f < 2 ^ 24 → n < 4 → Known (vvnKid v f n)
  | other {t : Nat} {x : α} {b : Bytes} : t ∉ codecTypes → Known ⟨t, .other t x, b⟩

/-- The first box of a type. -/
def boxOf (ks : List (Kid (Cx α))) (t : Nat) : Option (Kid (Cx α)) := ks.find? fun k => k.type = t

/-- An entry of a kind that the library finds by the type, or a visual one of a type that it does not know. -/
def Opens (s : Sample (Cx α)) : Prop := s.Typed ∨ (∃ f, s.kind = .visual f) ∧ s.type ∉ known

/-- The entry can be written and read, and so can its configurations. -/
structure Codec (C : Class α) (s : Sample (Cx α)) : Prop where
  ok : s.Ok (codecs C)
  opens : Opens s
  boxes : ∀ k ∈ s.kids, Known k

/-! ## Answers -/

/-- The sets of a type of NAL units, when there is an array for it. -/
def setsIn (as : List Arr) (nalu : Nat) : Option (List Bytes) := (as.find? fun a => a.type = nalu).map (·.nals)

/-- The set with a number, counted from 1. -/
def setIn (as : List Arr) (nalu i : Nat) : Res Bytes :=
  match setsIn as nalu with
  | some l => answer l i
  | none => .err .badParam

/-- Of H.264: 1 is for sequence sets, 2 for picture sets, 3 for sequence set extensions. -/
def avcSetIn (c : Avc) (kind i : Nat) : Res Bytes :=
  match kind with
  | 1 => answer c.sps i
  | 2 => answer c.pps i
  | 3 => answer c.spsext i
  | _ => .err .badParam

/-- The number of bytes of the lengths of NAL units in a configuration. -/
def lengthOf (k : Kid (Cx α)) : Option Nat :=
  match k.val with
  | .avc c => some c.lengthSize
  | .hevc c => some (c.lengthSize1 + 1)
  | .vvc c => some (c.lengthSize1 + 1)
  | .vvn _ _ n => some (n + 1)
  | .other .. => none

/-- The first configuration there is, in this order, tells. -/
def lengthIn (ks : List (Kid (Cx α))) : Option Nat :=
  ((((boxOf ks (fcc 'v' 'v' 'n' 'C')).or (boxOf ks (fcc 'h' 'v' 'c' 'C'))).or (boxOf ks (fcc 'a' 'v' 'c' 'C'))).or
    (boxOf ks (fcc 'v' 'v' 'c' 'C'))).bind lengthOf

/-- A new entry: one box, the default fields but for the size. -/
def fresh (type dref width height : Nat) (k : Kid (Cx α)) : Sample (Cx α) :=
  ⟨type, [0, 0, 0, 0, 0, 0], dref, .visual { freshVideo with width := width, height := height }, [k]⟩

end Verif.Cod
