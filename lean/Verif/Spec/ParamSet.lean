import Verif.Spec.Bits

/-!
# Specification of sequence parameter sets
The syntax of H.264 7.3.2.1.1, H.265 7.3.2.2 and 7.3.3, H.266 7.3.2.4 and 7.3.3, up to the last field that the decoder
configuration needs. A record holds the fields, `bits` is the syntax.
-/

namespace Verif.ParamSet

open Bits

/-! ## H.264 -/

structure AvcSps where
  refIdc : Nat
  profile : Nat
  compatibility : Nat
  level : Nat
  id : Nat
  chroma : Nat
  /-- with chroma format 3 -/
  separate : Bool
  luma : Nat
  chromaDepth : Nat

/-- The profiles whose sets have the chroma format and bit depths and for which ISO/IEC 14496-15 stores them. -/
def AvcSps.high (s : AvcSps) : Prop := s.profile = 100 ∨ s.profile = 110 ∨ s.profile = 122 ∨ s.profile = 144

instance (s : AvcSps) : Decidable s.high := inferInstanceAs (Decidable (_ ∨ _))

def AvcSps.bits (s : AvcSps) : List Bool :=
  [false] ++ u 2 s.refIdc ++ u 5 7 ++ u 8 s.profile ++ u 8 s.compatibility ++ u 8 s.level ++ golomb s.id ++
  if s.high then golomb s.chroma ++ (if s.chroma = 3 then [s.separate] else []) ++ golomb s.luma ++ golomb s.chromaDepth else []

structure AvcSps.Ok (s : AvcSps) : Prop where
  profile : s.profile < 256
  compatibility : s.compatibility < 256
  level : s.level < 256
  id : s.id < 32
  chroma : s.chroma < 4
  luma : s.luma < 7
  chromaDepth : s.chromaDepth < 7

/-! ## H.265 -/

/-- What a sub-layer may have: 88 bits of profile, a level. -/
structure HevcSub where
  profile : Option (List Bool)
  level : Option Nat

structure HevcSps where
  layer : Nat
  temporal : Nat
  vps : Nat
  nested : Bool
  space : Nat
  tier : Bool
  profile : Nat
  compatibility : Nat
  /-- 48 bits -/
  constraints : List Bool
  level : Nat
  /-- one for each sub-layer but the highest -/
  subs : List HevcSub
  id : Nat
  chroma : Nat
  separate : Bool
  width : Nat
  height : Nat
  /-- the conformance window: left, right, top, bottom -/
  window : Option (Nat × Nat × Nat × Nat)
  luma : Nat
  chromaDepth : Nat

def windowBits : Option (Nat × Nat × Nat × Nat) → List Bool
  | none => [false]
  | some (a, b, c, d) => [true] ++ (golomb a ++ golomb b ++ golomb c ++ golomb d)

def windowOk : Option (Nat × Nat × Nat × Nat) → Prop
  | none => True
  | some (a, b, c, d) => a < 2 ^ 16 ∧ b < 2 ^ 16 ∧ c < 2 ^ 16 ∧ d < 2 ^ 16

def HevcSub.flags (s : HevcSub) : List Bool := [s.profile.isSome, s.level.isSome]

def HevcSub.data (s : HevcSub) : List Bool := s.profile.getD [] ++ (s.level.map (u 8)).getD []

/-- `profile_tier_level( 1, sps_max_sub_layers_minus1 )` -/
def HevcSps.ptl (s : HevcSps) : List Bool :=
  u 2 s.space ++ [s.tier] ++ u 5 s.profile ++ u 32 s.compatibility ++ s.constraints ++ u 8 s.level ++
  s.subs.flatMap HevcSub.flags ++ (if s.subs = [] then [] else List.replicate (2 * (8 - s.subs.length)) false) ++
  s.subs.flatMap HevcSub.data

def HevcSps.bits (s : HevcSps) : List Bool :=
  [false] ++ u 6 33 ++ u 6 s.layer ++ u 3 s.temporal ++
  u 4 s.vps ++ u 3 s.subs.length ++ [s.nested] ++ s.ptl ++
  golomb s.id ++ golomb s.chroma ++ (if s.chroma = 3 then [s.separate] else []) ++
  golomb s.width ++ golomb s.height ++ windowBits s.window ++ golomb s.luma ++ golomb s.chromaDepth

structure HevcSps.Ok (s : HevcSps) : Prop where
  profile : s.profile < 32
  compatibility : s.compatibility < 2 ^ 32
  constraints : s.constraints.length = 48
  level : s.level < 256
  subs : s.subs.length < 7
  sub : ∀ x ∈ s.subs, (∀ p, x.profile = some p → p.length = 88) ∧ ∀ l, x.level = some l → l < 256
  id : s.id < 16
  chroma : s.chroma < 4
  width : s.width < 2 ^ 16
  height : s.height < 2 ^ 16
  window : windowOk s.window
  luma : s.luma < 9
  chromaDepth : s.chromaDepth < 9

/-! ## H.266 -/

/-- Profile, tier and level without constraints and sub-profiles; the levels of the sub-layers but the highest, from the
lowest. -/
structure VvcPtl where
  profile : Nat
  tier : Bool
  level : Nat
  frameOnly : Bool
  multi : Bool
  levels : List (Option Nat)

/-- No constraints, the alignment and then the levels, from the highest. -/
def VvcPtl.head (p : VvcPtl) : List Bool :=
  u 7 p.profile ++ [p.tier] ++ u 8 p.level ++ [p.frameOnly] ++ [p.multi] ++
  [false] ++ List.replicate 5 false ++
  p.levels.reverse.map Option.isSome ++ (if p.levels = [] then [] else List.replicate (8 - p.levels.length) false) ++
  p.levels.reverse.flatMap (fun l => (l.map (u 8)).getD [])

/-- No sub-profiles. -/
def VvcPtl.bits (p : VvcPtl) : List Bool := p.head ++ u 8 0

/-- A sub-picture: position and size in units of the block size, as far as they are there, and the two flags. -/
structure VvcSubpic where
  x : Nat
  y : Nat
  w : Nat
  h : Nat
  treated : Bool
  filter : Bool

structure VvcSubpics where
  indep : Bool
  same : Bool
  pics : List VvcSubpic
  len : Nat
  /-- whether mapping is explicit, and the identifiers if they are here -/
  ids : Option (Option (List Nat))

structure VvcSps where
  layer : Nat
  temporal : Nat
  id : Nat
  vps : Nat
  sublayers : Nat
  chroma : Nat
  ctu : Nat
  ptl : Option VvcPtl
  gdr : Bool
  resampling : Option Bool
  width : Nat
  height : Nat
  window : Option (Nat × Nat × Nat × Nat)
  subpics : Option VvcSubpics
  depth : Nat

/-- `Ceil( Log2( n ) )`. -/
def ceilLog (n : Nat) : Nat := if n ≤ 1 then 0 else Nat.log2 (n - 1) + 1

def VvcSps.ctb (s : VvcSps) : Nat := 2 ^ (s.ctu + 5)

/-- Bits of a position: the number of blocks across is `( size + CtbSizeY - 1 ) >> CtbLog2SizeY`. -/
def VvcSps.unit (s : VvcSps) (size : Nat) : Nat := ceilLog ((size + s.ctb - 1) / s.ctb)

def VvcSps.subpicBits (s : VvcSps) (q : VvcSubpics) (n i : Nat) (p : VvcSubpic) : List Bool :=
  (if q.same = false ∨ i = 0 then
    (if i > 0 ∧ s.width > s.ctb then u (s.unit s.width) p.x else []) ++
    (if i > 0 ∧ s.height > s.ctb then u (s.unit s.height) p.y else []) ++
    (if i < n ∧ s.width > s.ctb then u (s.unit s.width) p.w else []) ++
    (if i < n ∧ s.height > s.ctb then u (s.unit s.height) p.h else [])
   else []) ++
  (if q.indep = false then [p.treated] ++ [p.filter] else [])

def VvcSps.subpicsBits (s : VvcSps) (q : VvcSubpics) (n : Nat) : Nat → List VvcSubpic → List Bool
  | _, [] => []
  | i, p :: ps => s.subpicBits q n i p ++ s.subpicsBits q n (i + 1) ps

def VvcSps.subpicInfo (s : VvcSps) (q : VvcSubpics) : List Bool :=
  golomb (q.pics.length - 1) ++
  (if q.pics.length > 1 then [q.indep] ++ [q.same] else []) ++
  (if q.pics.length > 1 then s.subpicsBits q (q.pics.length - 1) 0 q.pics else []) ++
  golomb q.len ++
  match q.ids with
  | none => [false]
  | some none => [true] ++ [false]
  | some (some ids) => [true] ++ [true] ++ ids.flatMap (u (q.len + 1))

def VvcSps.bits (s : VvcSps) : List Bool :=
  [false] ++ [false] ++ u 6 s.layer ++ u 5 15 ++ u 3 s.temporal ++
  u 4 s.id ++ u 4 s.vps ++ u 3 s.sublayers ++ u 2 s.chroma ++ u 2 s.ctu ++ [s.ptl.isSome] ++
  (s.ptl.map VvcPtl.bits).getD [] ++
  [s.gdr] ++ (match s.resampling with | none => [false] | some c => [true] ++ [c]) ++
  golomb s.width ++ golomb s.height ++ windowBits s.window ++
  (match s.subpics with | none => [false] | some q => [true] ++ s.subpicInfo q) ++ golomb s.depth

structure VvcSps.Ok (s : VvcSps) : Prop where
  sublayers : s.sublayers < 7
  chroma : s.chroma < 4
  ctu : s.ctu < 3
  ptl : ∀ p, s.ptl = some p → p.profile < 128 ∧ p.level < 256 ∧ p.levels.length = s.sublayers ∧ ∀ l ∈ p.levels, ∀ v, l = some v → v < 256
  width : s.width < 2 ^ 16
  height : s.height < 2 ^ 16
  window : windowOk s.window
  subpics : ∀ q, s.subpics = some q → 0 < q.pics.length ∧ q.pics.length < 2 ^ 16 ∧ q.len < 16 ∧
    ∀ ids, q.ids = some (some ids) → ids.length = q.pics.length
  depth : s.depth < 9

end Verif.ParamSet
