import Verif.Core.Box

/-!
# Offsets of sample auxiliary information
SampleAuxiliaryInformationOffsetsAtom.c
-/

namespace Verif.Saio

/-- `MP4SampleAuxiliaryInformationOffsetsAtom`: MP4Atoms.h 702-716. `offsets` are the allocated cells; there are
always `entry_count` of them. -/
structure Box where
  version : Nat
  flags : Nat
  auxType : Nat
  auxParam : Nat
  offsets : List Nat
  additional : Nat
  total : Nat
  deriving DecidableEq, Repr

def typeSaio : Nat := 0x7361696f

/-- `calculateSize`: lines 78-107. -/
def size (b : Box) : Nat :=
  w32(12 + (if b.flags &&& 1 ≠ 0 then 8 else 0) + 4 + b.offsets.length * (if b.version = 0 then 4 else 8))

/-- `serialize`: lines 38-76. `additionalOffset` is never set. -/
def serialize (b : Box) : W :=
  serFull (size b) typeSaio b.version b.flags ;;
  (if b.flags &&& 1 ≠ 0 then put32 b.auxType ;; put32 b.auxParam else W.skip) ;;
  put32 b.offsets.length ;;
  W.each (fun o => if b.version = 0 then put32 w32(w64(o + b.additional)) else put64 o) b.offsets ;; W.assertFull

/-- Lines 120-124. -/
def getAux (flags : Nat) : P (Nat × Nat) :=
  if flags &&& 1 ≠ 0 then do
    let t ← get32
    let p ← get32
    pure (t, p)
  else pure (0, 0)

/-- `createFromInputStream`: lines 109-147, with the assertion at the end. -/
def parse (h : Hdr) : P Box := do
  let vf ← getVersionFlags
  let aux ← getAux vf.2
  let count ← get32
  let offsets ← P.repeat count (if vf.1 = 0 then get32 else get64 : P Nat)
  let br ← P.bytesRead
  if br = h.size then pure ⟨vf.1, vf.2, aux.1, aux.2, offsets, 0, 0⟩ else P.bad

/-- Whether `realloc` to `n * 8` bytes, computed in 32 bits, gives `n` cells. -/
def room (n : Nat) : Bool := w32(n * 8) / 8 ≥ n

/-- The loop of `addOffsets`: lines 172-178. -/
def place : Nat → List Nat → List Nat
  | _, [] => []
  | total, s :: ss => total :: place w64(total + s) ss

/-- `addOffsets`: lines 149-185; `given` are the `u32` values in the handle. -/
def addOffsets (b : Box) (n : Nat) (given : List Nat) : Res Box :=
  if given.length ≠ 1 ∧ given.length ≠ n then .err .badParam
  else
    let sizes := if given.length = 1 then List.replicate n (given.headD 0) else given
    if room w32(b.offsets.length + n) ∧ b.offsets.length + n < 4294967296 then
      .ok { b with offsets := b.offsets ++ place b.total sizes, total := w64(b.total + sizes.sum) }
    else .ub

/-- The loop of `mdatMoved`: lines 195-199, from index `j` on for `k` rounds. -/
def moveLoop (base stop : Nat) (delta : Int) : Nat → Nat → List Nat → Res (List Nat)
  | 0, _, l => .ok l
  | k + 1, j, l =>
    match l[j]? with
    | none => .ub
    | some o =>
      moveLoop base stop delta k (j + 1) (if o ≥ base ∧ o < stop then l.set j (u64i (o + delta)) else l)

/-- `mdatMoved`: lines 187-204; the loop runs up to and including `entry_count`. -/
def mdatMoved (b : Box) (base stop : Nat) (delta : Int) : Res Box :=
  (moveLoop base stop delta (b.offsets.length + 1) 0 b.offsets).bind fun l => .ok { b with offsets := l }

/-- `mergeOffsets`: lines 206-233. -/
def mergeOffsets (b o : Box) (base : Nat) : Res Box :=
  if room w32(b.offsets.length + o.offsets.length) ∧ b.offsets.length + o.offsets.length < 4294967296 then
    .ok { b with offsets := b.offsets ++ o.offsets.map fun x => w64(base + x), total := o.total }
  else .ub

end Verif.Saio
