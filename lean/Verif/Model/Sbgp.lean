import Verif.Core.Box
import Verif.Core.Mem

/-!
# Sample to group mapping, run-length form: SampleToGroupAtom.c
-/

namespace Verif.Sbgp

/-- `MP4SampletoGroupAtom`: MP4Atoms.h 1894-1917; `cells` is the array `group_index` (empty for
NULL), `alloc` its size in bytes. The last three fields are `index_size_code`,
`index_msb_indicates_fragment_local_description` and `groupIsInFragment`. -/
structure Sbgp where
  count : Nat
  alloc : Nat
  cells : List Nat
  sizeCode : Nat
  msb : Bool
  frag : Bool
  deriving DecidableEq, Repr

/-- `MP4CreateSampletoGroupAtom`: SampleToGroupAtom.c 999-1049. -/
def create (frag : Bool) : Sbgp := ⟨0, 0, [], 4, false, frag⟩

/-- `GetFieldSize`: SampleToGroupAtom.c 89-129. -/
def fieldSize (value : Nat) (local_ : Bool) : Nat :=
  if local_ then (if value < 8 then 4 else if value < 128 then 8 else if value < 32768 then 16 else 32)
  else (if value < 16 then 4 else if value < 256 then 8 else if value < 65536 then 16 else 32)

/-- `ensureSize`: SampleToGroupAtom.c 431-454; `allocation_size` is 8192. -/
def ensureSize (junk : Nat → Nat) (t : Sbgp) (newSize : Nat) : Sbgp :=
  if newSize > t.alloc then
    { t with alloc := max w32(t.alloc + 8192) newSize,
             cells := Mem.realloc junk t.cells (max w32(t.alloc + 8192) newSize / 4) }
  else t

/-- Lines 461-470 of `addSamples` and 882-889 of the parser: make room for `vals` behind the first
`n` cells and store them. -/
def append (junk : Nat → Nat) (t : Sbgp) (n : Nat) (vals : List Nat) : Res Sbgp :=
  (Mem.store (ensureSize junk t w32(w32(n + vals.length) * 4)).cells n vals).bind fun c =>
  .ok { ensureSize junk t w32(w32(n + vals.length) * 4) with cells := c }

/-- `addSamples`: SampleToGroupAtom.c 456-475. -/
def addSamples (junk : Nat → Nat) (t : Sbgp) (n : Nat) : Res Sbgp :=
  (append junk t t.count (List.replicate n 0)).bind fun t' => .ok { t' with count := w32(t.count + n) }

/-- Lines 508-515 of `mapSamplestoGroup`: the flag and the field size. -/
def noteIndex (t : Sbgp) (index : Nat) : Sbgp :=
  { t with msb := t.msb || (t.frag && decide (index ≥ 0x10000)),
           sizeCode := max t.sizeCode (fieldSize index (t.msb || (t.frag && decide (index ≥ 0x10000)))) }

/-- `sampleCount + sample_index` for a negative index, in `u32`. -/
def fromEnd (count : Nat) (index : Int) : Nat := u32i (count + index)

/-- `mapSamplestoGroup`: SampleToGroupAtom.c 477-521. -/
def mapSamples (t : Sbgp) (group : Nat) (index : Int) (n : Nat) : Res Sbgp :=
  if index < 0 then
    (if n > (-index).toNat then .err .badParam
     else if n = 0 then .ok (noteIndex t group)
     else (Mem.store t.cells (fromEnd t.count index) (List.replicate n group)).bind fun c =>
      .ok (noteIndex { t with cells := c } group))
  else if w32(n + index.toNat) > t.count then .err .badParam
  else (Mem.store t.cells index.toNat (List.replicate n group)).bind fun c =>
    .ok (noteIndex { t with cells := c } group)

/-- `getSampleGroupMap`: SampleToGroupAtom.c 557-573. -/
def getMap (t : Sbgp) (n : Nat) : Res Nat :=
  if n < 1 then .err .badParam
  else if n > t.count then .ok 0
  else Mem.get t.cells (n - 1)

/-- The cells read by the serializers: the first `count`, and cell 0 even if `count` is 0. -/
def used (t : Sbgp) : Res (List Nat) :=
  if max t.count 1 ≤ t.cells.length then .ok (t.cells.take (max t.count 1)) else .ub

/-- The run-length loop of `serialize`, lines 697-717, after the cell `cur` was read `n` times:
entries of count and index. -/
def runsFrom (cur n : Nat) : List Nat → List (Nat × Nat)
  | [] => [(n, cur)]
  | x :: r => if cur ≠ x then (n, cur) :: runsFrom x 1 r else runsFrom cur (n + 1) r

/-- Same, from the start. -/
def runs : List Nat → List (Nat × Nat)
  | [] => []
  | x :: r => runsFrom x 1 r

/-- The loop of `calculateSize` that counts entries: lines 769-773. -/
def countFrom (cur : Nat) : List Nat → Nat
  | [] => 1
  | x :: r => (if cur ≠ x then 1 else 0) + countFrom x r

def entryCount : List Nat → Nat
  | [] => 0
  | x :: r => countFrom x r

/-- `'sbgp'` -/
def typeSbgp : Nat := 0x73626770

/-- `calculateSize`: SampleToGroupAtom.c 755-781, run-length form. -/
def calcSize (version : Nat) (gs : List Nat) : Nat :=
  w32(w32(12 + w32(w32(entryCount gs * 8) + 8)) + (if version = 1 then 4 else 0))

/-- `serialize`: SampleToGroupAtom.c 662-720, run-length form, for the cells `gs` (`used`). -/
def serialize (version groupingType param : Nat) (gs : List Nat) : W :=
  serFull (calcSize version gs) typeSbgp version 0 ;; put32 groupingType ;;
  (if version = 1 then put32 param else W.skip) ;;
  put32 (entryCount gs) ;; W.each (fun e => put32 e.1 ;; put32 e.2) (runs gs) ;;
  (if (runs gs).length = entryCount gs then W.skip else W.bad) ;; W.assertFull

/-- The loop of `createFromInputStream`, lines 874-890. -/
def getRuns (junk : Nat → Nat) : Nat → Sbgp → Nat → P (Sbgp × Nat)
  | 0, t, size => pure (t, size)
  | k + 1, t, size => do
    let n ← get32
    let index ← get32
    let t ← P.lift (append junk t size (List.replicate n index))
    getRuns junk k t w32(size + n)

/-- `createFromInputStream`: SampleToGroupAtom.c 841-892, run-length form. -/
def parseBody (junk : Nat → Nat) (_ : Hdr) : P ((Nat × Nat) × Nat × Nat × Sbgp) := do
  let vf ← getVersionFlags
  let gt ← get32
  let param ← (if vf.1 = 1 then get32 else pure 0)
  let n ← get32
  let r ← getRuns junk n (create false) 0
  pure (vf, gt, param, { r.1 with count := r.2 })

/-- The loop of `getSampleGroupSampleNumbers`, from sample `i` (counted from 0) on. -/
def numbersFrom (g : Nat) : Nat → Nat → List Nat → List Nat
  | i, cur, [] => if cur = g then [i] else []
  | i, cur, x :: r => (if cur ≠ x ∧ cur = g then [i] else []) ++ numbersFrom g (i + 1) x r

/-- `getSampleGroupSampleNumbers`: SampleTableAtom.c 710-745, for the cells `gs`. -/
def sampleNumbers (g : Nat) : List Nat → List Nat
  | [] => []
  | x :: r => numbersFrom g 1 x r

end Verif.Sbgp
