import Verif.Model.BitReader
import Verif.Model.Config

/-!
# The decoder configuration made from the first parameter sets
`ISONewAVCSampleDescription`, `ISONewHEVCSampleDescription`, `ISONewVVCSampleDescription`:
ISOSampleDescriptions.c 988-1086, 1470-1672, 1872-2213.

The track is a visual track. The sample entry is its `width` and `height` and the configuration; storing it is in
Model/Config. A failed assertion is `ub`.
-/

namespace Verif.ParamSet

open Bits Config

/-- Refuse with an error. -/
def refuse {α : Type} (e : Err) : B α := fun _ => .err e

def crash {α : Type} : B α := fun _ => .ub

def skip (n : Nat) (p : B Nat) : B Unit := do
  let _ ← times n p
  pure ()

/-! ## AVC -/

/-- The fields after the bit depth is known to follow: lines 1052-1061. -/
def avcHigh (c : Avc) : B Avc := do
  let chroma ← ue
  let luma ← ue
  let depth ← ue
  pure { c with chroma := chroma, luma := luma, chromaDepth := depth }

/-- Lines 1033-1062. -/
def avcFields (lengthSize : Nat) : B Avc := do
  let x ← byte
  if x &&& 0x1F ≠ 7 then refuse .badParam else do
  let profile ← byte
  let compatibility ← byte
  let level ← byte
  let _ ← ue
  let c : Avc := { Avc.create with lengthSize := lengthSize, profile := profile, compatibility := compatibility, level := level }
  if c.high then avcHigh c else pure c

/-- Adding an optional set. -/
def avcAdd (kind : Nat) (ps : Option Bytes) (c : Avc) : Res Avc :=
  match ps with
  | none => .ok c
  | some ps => Avc.add c kind ps

/-- `ISONewAVCSampleDescription`: lines 988-1086. The sequence parameter set is stored only with a picture parameter set. -/
def newAvc (lengthSize : Nat) (sps : Bytes) (pps spsext : Option Bytes) : Res Avc :=
  (init false sps).bind fun b =>
  (avcFields lengthSize b).bind fun r =>
  (avcAdd 1 (if pps.isSome then some sps else none) r.1).bind fun c =>
  (avcAdd 2 pps c).bind fun c => avcAdd 3 spsext c

/-! ## HEVC -/

/-- The flags of the sub-layers: lines 1570-1577. -/
def hevcFlags : B (Nat × Nat) := do
  let p ← flag
  let l ← flag
  pure (p, l)

/-- The sub-layers: lines 1586-1600. -/
def hevcSubs : List (Nat × Nat) → B Unit
  | [] => pure ()
  | (p, l) :: fs => do
    (if p ≠ 0 then skip 11 byte else pure () : B Unit)
    (if l ≠ 0 then skip 1 byte else pure () : B Unit)
    hevcSubs fs

/-- `|= x << ((3 - i) * 8)` for 4 bytes: lines 1549-1554. -/
def hevcCompat : B Nat := do
  let a ← byte
  let b ← byte
  let c ← byte
  let d ← byte
  pure (w32(a <<< 24) ||| w32(b <<< 16) ||| w32(c <<< 8) ||| d)

/-- Lines 1602-1648. -/
def hevcTail (c : Hevc) : B (Hevc × Nat × Nat) := do
  let _ ← ue
  let chroma ← ue
  (if chroma = 3 then skip 1 flag else pure () : B Unit)
  let width ← ue
  let height ← ue
  let x ← flag
  (if x ≠ 0 then skip 4 ue else pure () : B Unit)
  let luma ← ue
  let depth ← ue
  pure ({ c with chroma := chroma, luma := luma, chromaDepth := depth }, width, height)

/-- Lines 1524-1648. -/
def hevcFields (lengthSize : Nat) : B (Hevc × Nat × Nat) := do
  let x ← byte
  if x >>> 1 ≠ 33 then refuse .badParam else do
  let _ ← byte
  let x ← byte
  let layers := ((x &&& 0xf) >>> 1) + 1
  let y ← byte
  let compat ← hevcCompat
  skip 6 byte
  let level ← byte
  let fs ← times (layers - 1) hevcFlags
  (if layers > 1 then skip 1 (get (16 - (layers - 1) * 2)) else pure () : B Unit)
  hevcSubs fs
  hevcTail { Hevc.create with lengthSize1 := lengthSize - 1, nested := x &&& 1, profile := y &&& 0x1f, compatibility := compat, level := level }

def hevcAdd (nalu : Nat) (ps : Option Bytes) (c : Hevc) : Hevc :=
  match ps with
  | none => c
  | some ps => Hevc.add c nalu ps

/-- `ISONewHEVCSampleDescription`: lines 1470-1672: the configuration, and width and height for the sample entry and the
track. -/
def newHevc (lengthSize : Nat) (sps : Bytes) (pps vps : Option Bytes) : Res (Hevc × Nat × Nat) :=
  if lengthSize ≠ 1 ∧ lengthSize ≠ 2 ∧ lengthSize ≠ 4 then .err .badParam else
  (init true sps).bind fun b =>
  (hevcFields lengthSize b).bind fun r =>
  .ok (hevcAdd 34 pps (Hevc.add (hevcAdd 32 vps r.1.1) 33 sps), r.1.2)

/-! ## VVC -/

/-- `while(bb->curbits % 8 != 0)`: lines 1998-2003. -/
def alignF : Nat → B Unit
  | 0 => crash
  | fuel + 1 => fun b => if b.cur % 8 ≠ 0 then (flag b).bind fun r => alignF fuel r.2 else .ok ((), b)

/-- The constraints: lines 1957-1995. The number of bytes is 10 or more after the loop; the assertion asks for 11. If it holds,
11 bytes of an array of 10 are copied. -/
def vvcConstraints (p : Ptl) : B Ptl := do
  let present ← flag
  if present = 0 then pure { p with upper := 0, bytes := 1 } else do
  let _ ← get 5
  let last ← times 9 byte
  let x ← get 3
  let reserved := ((last.getLastD 0 &&& 0x1f) <<< 3) ||| w8(x)
  if 10 + (reserved + 3) / 8 = 11 then crash /- past the end of `gciBuffer` -/ else crash /- assertion -/

/-- The levels of the sub-layers, from the highest: lines 2018-2027, for the flags in the order of reading. -/
def vvcLevels : List Nat → B (List (Nat × Nat))
  | [] => pure []
  | f :: fs => do
    let l ← (if f ≠ 0 then byte else pure 0 : B Nat)
    let ls ← vvcLevels fs
    pure ((f, l) :: ls)

/-- Lines 1938-2039, with `n` sub-layers. `general_sub_profile_idc` was never allocated. -/
def vvcPtl (n : Nat) : B Ptl := do
  let x ← byte
  let level ← byte
  let frameOnly ← flag
  let multi ← flag
  let p ← vvcConstraints { Vvc.noPtl with profile := x >>> 1, tier := x &&& 1, level := level, frameOnly := frameOnly, multiLayer := multi }
  alignF 9
  let fs ← times (n - 1) flag
  skip (if n > 1 then 9 - n else 0) flag
  let ls ← vvcLevels fs
  let subs ← byte
  if subs ≠ 0 then crash else
  pure { p with subs := ls.reverse ++ p.subs.drop (n - 1), subProfileCount := 0 }

/-- `while(v > ((u32)1 << uvBits)) uvBits += 1`: lines 2105-2109. `v` is at most 2^27, so the loop ends in time. -/
def widthF : Nat → Nat → Nat → Nat
  | 0, _, n => n
  | fuel + 1, v, n => if v > 2 ^ n then widthF fuel v (n + 1) else n

/-- The number of bits for a position in units of the block size: lines 2104-2109. -/
def unitBits (size ctb : Nat) : Nat := widthF 32 (w32(w32(size + ctb) + 4294967295) / ctb) 0

/-- One of the positions and sizes: lines 2102-2149. -/
def vvcUnit (present : Bool) (size ctb : Nat) : B Unit :=
  if present ∧ size > ctb then skip 1 (get (unitBits size ctb)) else pure ()

/-- A sub-picture: lines 2098-2156, with index `i` of `n`. -/
def vvcSubpic (w h ctb n : Nat) (indep same : Nat) (i : Nat) : B Unit := do
  (if same = 0 ∨ i = 0 then do
    vvcUnit (decide (i > 0)) w ctb
    vvcUnit (decide (i > 0)) h ctb
    vvcUnit (decide (i < n)) w ctb
    vvcUnit (decide (i < n)) h ctb
   else pure () : B Unit)
  (if indep = 0 then skip 1 (get 2) else pure () : B Unit)

/-- `for(ui = i; ui <= n; ui++)` for the `k` rounds that are left. -/
def vvcSubpics (w h ctb n indep same : Nat) : Nat → Nat → B Unit
  | 0, _ => pure ()
  | k + 1, i => do
    vvcSubpic w h ctb n indep same i
    vvcSubpics w h ctb n indep same k (i + 1)

/-- The sub-pictures: lines 2079-2181. A loop up to 2^32 - 1 would not end; it runs out of bits. -/
def vvcSubpicInfo (w h ctb : Nat) : B Unit := do
  let n ← ue
  let f ← (if n > 0 then do
      let a ← flag
      let b ← flag
      pure (a, b)
    else pure (0, 0) : B (Nat × Nat))
  (if n > 0 then vvcSubpics w h ctb n f.1 f.2 (n + 1) 0 else pure () : B Unit)
  let len ← ue
  let explicit ← flag
  if explicit ≠ 0 then do
    let present ← flag
    if present ≠ 0 then skip (n + 1) (get w32(len + 1)) else pure ()
  else pure ()

/-- Lines 2040-2186. -/
def vvcTail (c : Vvc) (ctb : Nat) : B (Vvc × Nat × Nat) := do
  let _ ← flag
  let x ← flag
  (if x ≠ 0 then skip 1 flag else pure () : B Unit)
  let width ← ue
  let height ← ue
  let x ← flag
  (if x ≠ 0 then skip 4 ue else pure () : B Unit)
  let x ← flag
  (if x ≠ 0 then vvcSubpicInfo width height ctb else pure () : B Unit)
  let depth ← ue
  pure ({ c with width := width, height := height, depth := depth }, width, height)

/-- Lines 1920-2186. -/
def vvcFields (lengthSize : Nat) : B (Vvc × Nat × Nat) := do
  let _ ← byte
  let x ← byte
  if x >>> 3 ≠ 15 then refuse .badParam else do
  let _ ← byte
  let x ← byte
  let c : Vvc := { Vvc.create with lengthSize1 := lengthSize - 1, sublayers := (x >>> 5) + 1, chroma := (x &&& 0x1f) >>> 3, ptlPresent := x &&& 1 }
  let p ← (if x &&& 1 ≠ 0 then vvcPtl c.sublayers else pure c.ptl : B Ptl)
  vvcTail { c with ptl := p } (1 <<< (((x &&& 0x06) >>> 1) + 5))

/-- The picture parameter set: lines 2190-2206. -/
def vvcPps (pps : Bytes) (c : Vvc) : Res Vvc :=
  (init true pps).bind fun b =>
  (byte b).bind fun r =>
  (byte r.2).bind fun r =>
  if r.1 >>> 3 ≠ 16 then .err .badParam else Vvc.add c 16 pps

/-- `ISONewVVCSampleDescription`: lines 1872-2213. -/
def newVvc (lengthSize : Nat) (sps : Bytes) (pps : Option Bytes) : Res (Vvc × Nat × Nat) :=
  if lengthSize ≠ 1 ∧ lengthSize ≠ 2 ∧ lengthSize ≠ 4 then .err .badParam else
  (init true sps).bind fun b =>
  (vvcFields lengthSize b).bind fun r =>
  (Vvc.add r.1.1 15 sps).bind fun c =>
  (match pps with | none => Res.ok c | some pps => vvcPps pps c).bind fun c => .ok (c, r.1.2)

end Verif.ParamSet
