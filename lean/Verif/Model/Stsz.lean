import Verif.Core.Box

/-!
# Sample size table: SampleSizeAtom.c

Memory obtained by `realloc` holds indeterminate values; the model takes them from an arbitrary
function `junk` (cell index to value), over which the theorems quantify.
-/

namespace Verif.Stsz

/-- `MP4SampleSizeAtom`: MP4Atoms.h 1203-1217. `cells` is the array `sizes` (none for NULL). -/
structure Stsz where
  sampleSize : Nat
  count : Nat
  field : Nat
  alloc : Nat
  cells : Option (List Nat)
  deriving DecidableEq, Repr

/-- `MP4CreateSampleSizeAtom`: SampleSizeAtom.c 358-384. -/
def create : Stsz := ⟨0, 0, 32, 0, none⟩

/-- `realloc` of an array to `k` cells. -/
def realloc (junk : Nat → Nat) (cells : List Nat) (k : Nat) : List Nat :=
  cells.take k ++ (List.range (k - cells.length)).map fun i => junk (cells.length + i)

/-- Store `vals` at index `start`; a store outside the array is undefined. -/
def store (cells : List Nat) (start : Nat) (vals : List Nat) : Res (List Nat) :=
  if start + vals.length ≤ cells.length then
    .ok (cells.take start ++ vals ++ cells.drop (start + vals.length))
  else .ub

/-- `while(allocatedSize < newsize) allocatedSize += allocation_size;` with `allocation_size` 8192
(lines 88-89). When the sum leaves 32 bits the C loop starts again from a small value; the model
calls that undefined. -/
def grow (alloc newsize : Nat) : Res Nat :=
  let a := alloc + 8192 * ((newsize - alloc + 8191) / 8192)
  if a < 4294967296 then .ok a else .ub

/-- Lines 69-93 of `addSamples`: make room in the array. Returns `allocatedSize` and the array. -/
def makeRoom (junk : Nat → Nat) (t : Stsz) (n : Nat) : Res (Nat × List Nat) :=
  let newsize := w32(w32(n + t.count + 1) * 4)
  let fresh := t.cells = none ∧ t.count ≠ 0
  let alloc := if fresh then max newsize 8192 else t.alloc
  let old := t.cells.getD []
  match (if fresh then store (List.replicate (alloc / 4) 0) 0 (List.replicate t.count t.sampleSize)
    else .ok old) with
  | .ok cells =>
    if alloc < newsize then
      match grow alloc newsize with
      | .ok a => .ok (a, realloc junk cells (a / 4))
      | _ => .ub
    else .ok (alloc, cells)
  | _ => .ub

/-- `addSamples`: SampleSizeAtom.c 46-115. `sizes` is the content of the handle. -/
def addSamples (junk : Nat → Nat) (t : Stsz) (n : Nat) (sizes : List Nat) : Res Stsz :=
  match sizes with
  | [] => .ub
  | s0 :: rest =>
    if (rest.any fun s => s ≠ s0) ∨ s0 = 0 ∨ (t.count > 0 ∧ s0 ≠ t.sampleSize) then
      match makeRoom junk t n with
      | .ok (alloc, cells) =>
        match store cells t.count (if sizes.length > 1 then sizes else List.replicate n s0) with
        | .ok cells => .ok ⟨0, w32(t.count + n), t.field, alloc, some cells⟩
        | _ => .ub
      | _ => .ub
    else .ok { t with sampleSize := s0, count := w32(t.count + n) }

/-- Read `sizes[i]`. -/
def cell (t : Stsz) (i : Nat) : Res Nat :=
  match t.cells with
  | some cells => match cells[i]? with | some v => .ok v | none => .ub
  | none => .ub

/-- `getSampleSize`: SampleSizeAtom.c 117-139. -/
def getSampleSize (t : Stsz) (n : Nat) : Res Nat :=
  if n > t.count ∨ n = 0 then .err .badParam
  else if t.sampleSize ≠ 0 then .ok t.sampleSize else cell t (n - 1)

/-- The summing loop of lines 164-166: `k` cells from `i` on. -/
def sumCells (t : Stsz) : Nat → Nat → Nat → Res Nat
  | 0, _, acc => .ok acc
  | k + 1, i, acc => match cell t i with
    | .ok v => sumCells t k (i + 1) w32(acc + v)
    | _ => .ub

/-- `getSampleSizeAndOffset`: SampleSizeAtom.c 141-174. -/
def getSampleSizeAndOffset (t : Stsz) (n start : Nat) : Res (Nat × Nat) :=
  if n > t.count ∨ n = 0 then .err .badParam
  else if start = 0 ∨ start > n then .err .badParam
  else if t.sampleSize ≠ 0 then .ok (t.sampleSize, w32((n - start) * t.sampleSize))
  else match cell t (n - 1) with
    | .ok v => match sumCells t (n - start) (start - 1) 0 with
      | .ok off => .ok (v, off)
      | _ => .ub
    | _ => .ub

/-- `'stsz'`, `'stz2'` -/
def typeStsz : Nat := 0x7374737A
def typeStz2 : Nat := 0x73747A32

/-- `setfieldsize`: SampleSizeAtom.c 176-185; the type it selects. -/
def setField (t : Stsz) (field : Nat) : Stsz := { t with field := field }

def boxType (t : Stsz) : Nat := if t.field = 32 ∨ t.sampleSize ≠ 0 then typeStsz else typeStz2

/-- `calculateSize`: SampleSizeAtom.c 248-279. -/
def calcSize (t : Stsz) : Nat :=
  if t.sampleSize = 0 then
    if t.field = 4 then w32(20 + w32(t.count + 1) / 2)
    else if t.field = 8 then w32(20 + t.count)
    else if t.field = 16 then w32(20 + w32(2 * t.count))
    else if t.field = 32 then w32(20 + w32(4 * t.count))
    else 20
  else 20

/-- `PUT` of `sizes[i]`. -/
def putCell (t : Stsz) (put : Nat → W) (i : Nat) : W :=
  match cell t i with | .ok v => put v | _ => W.bad

/-- The body of the loop for 4-bit sizes, lines 214-219: index `i` and `i + 1`, the first one in
the low half of the byte. -/
def putNibbles (t : Stsz) (i : Nat) : W :=
  match cell t i, cell t (i + 1) with
  | .ok a, .ok b => put8 ((a &&& 0xF) ||| ((b &&& 0xF) <<< 4))
  | _, _ => W.bad

/-- `serialize`: SampleSizeAtom.c 187-246. -/
def serialize (version flags : Nat) (t : Stsz) : W :=
  serFull (calcSize t) (boxType t) version flags ;;
  (if boxType t = typeStsz then
    put32 t.sampleSize ;; put32 t.count ;;
    (if t.sampleSize = 0 then W.each (putCell t put32) (List.range t.count) else W.skip)
  else
    put32 t.field ;; put32 t.count ;;
    (if t.field = 4 then W.each (fun k => putNibbles t (2 * k)) (List.range ((t.count + 1) / 2))
     else if t.field = 8 then W.each (putCell t put8) (List.range t.count)
     else if t.field = 16 then W.each (putCell t put16) (List.range t.count)
     else W.skip)) ;;
  W.assertFull

/-- The array made by the parser: `calloc( sampleCount + 1, 4 )` (lines 299, 317) with the values
read stored from the front. `sampleCount = 2^32 - 1` makes an empty array. -/
def parsedCells (count : Nat) (vals : List Nat) : P (Option (List Nat)) :=
  if vals.length ≤ w32(count + 1) then
    pure (some (vals ++ List.replicate (w32(count + 1) - vals.length) 0))
  else P.bad

/-- `createFromInputStream`: SampleSizeAtom.c 281-356. -/
def parseBody (h : Hdr) : P ((Nat × Nat) × Stsz) := do
  let vf ← getVersionFlags
  if h.type = typeStsz then do
    let sampleSize ← get32
    let count ← get32
    if sampleSize = 0 then do
      let vals ← P.repeat count get32
      let cells ← parsedCells count vals
      pure (vf, ⟨0, count, 32, w32(w32(count + 1) * 4), cells⟩)
    else pure (vf, ⟨sampleSize, count, 32, 0, none⟩)
  else do
    let field ← get32
    let count ← get32
    let vals ← (if field = 4 then do
        let ps ← P.repeat ((count + 1) / 2) (do
          let b ← get8
          pure [b &&& 0xF, (b >>> 4) &&& 0xF])
        pure (ps.flatMap id)
      else if field = 8 then P.repeat count get8
      else if field = 16 then P.repeat count get16
      else pure [])
    let cells ← parsedCells count vals
    pure (vf, ⟨0, count, field, w32(w32(count + 1) * 4), cells⟩)

end Verif.Stsz
