import Verif.Core.Box
import Verif.Core.Mem

/-!
# Padding bits: PaddingBitsAtom.c, and its use in SampleTableAtom.c and MP4Media.c
-/

namespace Verif.Padb

/-- `MP4PaddingBitsAtom`; `pads` is `none` for NULL. -/
structure Padb where
  count : Nat
  pads : Option (List Nat)
  deriving DecidableEq, Repr

def create : Padb := ⟨0, none⟩

/-- Lines 86-104: a new zeroed array one cell longer than the samples, the old pads copied, the new
ones stored behind. -/
def extend (t : Padb) (vals : List Nat) : Res Padb :=
  if t.count > (t.pads.getD []).length then .ub
  else
    (Mem.store (List.replicate w32(vals.length + t.count + 1) 0) 0 ((t.pads.getD []).take t.count)).bind fun c =>
    (Mem.store c t.count vals).bind fun c =>
    .ok ⟨w32(t.count + vals.length), some c⟩

/-- `addSamplePads`: PaddingBitsAtom.c 44-110. A failing `assert` is `ub`. -/
def addPads (t : Padb) (n : Nat) : Option (List Nat) → Res Padb
  | none => extend t (List.replicate n 0)
  | some [] => extend t (List.replicate n 0)
  | some [p] => extend t (List.replicate n p)
  | some ps => if n = ps.length then extend t ps else .ub

/-- `getPaddingBits`: PaddingBitsAtom.c 112-130. -/
def getPadding (t : Padb) (n : Nat) : Res Nat :=
  if n > t.count ∨ n = 0 then .err .badParam
  else match t.pads with
    | none => .ok 0
    | some c => Mem.get c (n - 1)

/-- The sample table as far as padding is concerned: number of samples, optional `padb`. -/
structure St where
  samples : Nat
  padb : Option Padb
  deriving DecidableEq, Repr

/-- The steps of `addSamples` about padding bits: SampleTableAtom.c 374-399. -/
def tableAdd (s : St) (n : Nat) (padsH : Option (List Nat)) : Res St :=
  match padsH, s.padb with
  | none, none => .ok ⟨w32(s.samples + n), none⟩
  | none, some t => (addPads t n none).bind fun t => .ok ⟨w32(s.samples + n), some t⟩
  | some h, none =>
    (if s.samples > 0 then addPads create s.samples none else .ok create).bind fun t =>
    (addPads t n (some h)).bind fun t => .ok ⟨w32(s.samples + n), some t⟩
  | some h, some t => (addPads t n (some h)).bind fun t => .ok ⟨w32(s.samples + n), some t⟩

/-- What `MP4GetIndMediaSampleWithPad` reports: MP4Media.c 1823-1833; 0xF8 without a table. -/
def samplePad (s : St) (n : Nat) : Res Nat :=
  match s.padb with
  | none => .ok 0xF8
  | some t => getPadding t n

/-- `'padb'` -/
def typePadb : Nat := 0x70616462

/-- `calculateSize`: PaddingBitsAtom.c 154-166. -/
def calcSize (t : Padb) : Nat := w32(12 + (w32(t.count + 1) / 2 + 4))

/-- The loop of `serialize`, `k` bytes from the cells on. -/
def putPairs : Nat → List Nat → W
  | 0, _ => W.skip
  | k + 1, a :: b :: r => put8 w8((a &&& 7) ||| ((b &&& 7) <<< 4)) ;; putPairs k r
  | _ + 1, _ => W.bad

/-- `serialize`: PaddingBitsAtom.c 132-152. -/
def serialize (version flags : Nat) (t : Padb) : W :=
  serFull (calcSize t) typePadb version flags ;; put32 t.count ;;
  putPairs (w32(t.count + 1) / 2) (t.pads.getD []) ;; W.assertFull

/-- `createFromInputStream`: PaddingBitsAtom.c 168-199. For the count 2^32-1 the array has no cell,
and the first store is out of bounds; the model reports that before reading a byte. -/
def parseBody (_ : Hdr) : P ((Nat × Nat) × Padb) := do
  let vf ← getVersionFlags
  let n ← get32
  if n = 4294967295 then P.bad else
  let ps ← P.repeat ((n + 1) / 2) (do
    let b ← get8
    pure [b &&& 7, (b >>> 4) &&& 7])
  pure (vf, ⟨n, some ((ps.flatMap id) ++ List.replicate (n + 1 - (ps.flatMap id).length) 0)⟩)

end Verif.Padb
