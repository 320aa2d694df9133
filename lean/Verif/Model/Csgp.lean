import Verif.Model.Sbgp

/-!
# Sample to group mapping, compact form: SampleToGroupAtom.c

The optimiser that looks for repeated patterns of group indices (lines 131-403), and reading and
writing of the compact box.
-/

namespace Verif.Csgp

open Sbgp (fieldSize)

/-- `PatternTracker`: SampleToGroupAtom.c 72-80. The cost is an `s32`; the model stops with `ub`
where it would leave that range. -/
structure Tr where
  start : Nat
  plen : Nat
  count : Nat
  cost : Nat
  prev : Int
  next : Int
  deriving DecidableEq, Repr

/-- `a - b` in `u32`. -/
def sub32 (a b : Nat) : Nat := w32(a + (4294967296 - b))

/-- `SetMemoryCostForPattern`: SampleToGroupAtom.c 170-193. Natural subtraction gives entry 0 for
a start of 0, as lines 178-180 do. `nextEfficientIndex` of the new entry is indeterminate in C; it is
set by `combine` before it is read. -/
def setPattern (field plen start last : Nat) (trk : List Tr) : Res (List Tr) :=
  if last < start + plen then .ub
  else
    (Mem.get trk (start - 1)).bind fun b =>
    (Mem.get trk last).bind fun e =>
    if b.cost + plen * field ≥ 2147483648 then .ub
    else if b.cost + plen * field < e.cost then
      Mem.set trk last ⟨start, plen, last - start + 1, b.cost + plen * field, (start : Int) - 1, 0⟩
    else .ok trk

/-- `SetMemoryCostForNonPattern`: SampleToGroupAtom.c 195-212. -/
def setNonPattern (field i : Nat) (trk : List Tr) : Res (List Tr) :=
  (Mem.get trk (i - 1)).bind fun b =>
  (Mem.get trk i).bind fun e =>
  if b.cost + field ≥ 2147483648 then .ub
  else if b.cost + field < e.cost then
    Mem.set trk i ⟨i, 1, 1, b.cost + field, (i : Int) - 1, 0⟩
  else .ok trk

/-- The `while` loop of `FindPatternsStartingAtIndex`, lines 269-275, from sample `i` on; the first
argument is the number of samples left, so it is 0 when `i` reaches the sample count. -/
def extend (g : List Nat) (field p start : Nat) : Nat → Nat → List Tr → Res (List Tr)
  | 0, _, trk => .ok trk
  | k + 1, i, trk =>
    (Mem.get g i).bind fun a =>
    (Mem.get g (i - p)).bind fun b =>
    if a = b then (setPattern field p start i trk).bind (extend g field p start k (i + 1)) else .ok trk

/-- The `for` loop of `FindPatternsStartingAtIndex`, lines 261-276. -/
def findFor (g : List Nat) (field n i : Nat) : List Nat → List Tr → Res (List Tr)
  | [], trk => .ok trk
  | p :: ps, trk =>
    if i < p then .ok trk
    else
      (Mem.get g i).bind fun a =>
      (Mem.get g (i - p)).bind fun b =>
      if a = b then (extend g field p (i - p) (n - i) i trk).bind (findFor g field n i ps)
      else findFor g field n i ps trk

/-- `FindPatternsStartingAtIndex`: SampleToGroupAtom.c 253-277; `kMaxPatternLength` is 32. -/
def find (g : List Nat) (field n i : Nat) (trk : List Tr) : Res (List Tr) :=
  (setNonPattern field i trk).bind (findFor g field n i (List.range' 1 32))

/-- Lines 334-338: for all samples. -/
def findAll (g : List Nat) (field n : Nat) : List Nat → List Tr → Res (List Tr)
  | [], trk => .ok trk
  | i :: is, trk => (find g field n i trk).bind (findAll g field n is)

/-- The loop of `InitializeSampleGroupInput`, lines 294-304. -/
def normLoop : List Nat → List Nat → Nat → Res (List Nat × Nat)
  | [], g, sv => .ok (g, sv)
  | i :: is, g, sv =>
    (Mem.get g (i - 1)).bind fun a =>
    (Mem.get g i).bind fun b =>
    if a = b then (Mem.set g (i - 1) sv).bind fun g => normLoop is g sv
    else normLoop is g b

/-- Lines 292-305 of `InitializeSampleGroupInput`, which write to the group indices. -/
def normalise (g : List Nat) (n : Nat) : Res (List Nat) :=
  (Mem.get g 0).bind fun sv =>
  (normLoop (List.range' 1 (n - 1)) g sv).bind fun r => Mem.set r.1 (pred32 n) r.2

/-- Lines 307-316 of `InitializeSampleGroupInput`. -/
def initTrackers (field n : Nat) : List Tr :=
  (List.range n).map fun i => ⟨i, 1, 1, (i + 1) * field, (i : Int) - 1, 0⟩

/-- The inner loop of `CombineNonPatterns`, lines 223-230. The first argument bounds the number of
iterations; the model stops with `ub` if it does not suffice. -/
def countNon (trk : List Tr) (n : Nat) : Nat → Int → Nat → Res (Nat × Int)
  | 0, _, _ => .ub
  | k + 1, i, c =>
    if 0 ≤ i ∧ i < n then
      (Mem.get trk i.toNat).bind fun e =>
      if e.plen = 1 ∧ e.count = 1 then countNon trk n k e.prev (c + 1) else .ok (c, i)
    else .ok (c, i)

/-- Lines 231-243 of `CombineNonPatterns`: the entry at `prevIndex` after the loop. -/
def combined (e : Tr) (c : Nat) (i next : Int) : Tr :=
  if c ≠ 0 then { e with plen := c, count := c, start := sub32 e.start (c - 1), prev := i, next := next }
  else { e with next := next }

/-- What `CombineNonPatterns` produces: the trackers, `efficientStartIndex`, `patternCount` and
`totalIndexDescriptionCount`. -/
structure Comb where
  trk : List Tr
  start : Int
  patterns : Nat
  total : Nat

/-- `CombineNonPatterns`: SampleToGroupAtom.c 214-251, from `prevIndex` on; bounded like
`countNon`. -/
def combine (n : Nat) : Nat → Int → Comb → Res Comb
  | 0, _, _ => .ub
  | k + 1, prev, s =>
    if 0 ≤ prev ∧ prev < n then
      (Mem.get s.trk prev.toNat).bind fun e =>
      (countNon s.trk n (n + 1) prev 0).bind fun r =>
      (Mem.set s.trk prev.toNat (combined e r.1 r.2 s.start)).bind fun trk =>
      combine n k (combined e r.1 r.2 s.start).prev
        ⟨trk, prev, w32(s.patterns + 1), w32(s.total + (if r.1 ≠ 0 then r.1 else e.plen))⟩
    else .ok s

/-- Lines 374-382: the value stored for a group index. -/
def encIndex (frag msb : Bool) (size g : Nat) : Nat :=
  if frag ∧ g ≥ 0x10000 then (if msb then (g - 0x10000) ||| 1 <<< (size - 1) else g - 0x10000) else g

/-- Lines 372-386: the indices of one pattern. -/
def slice (g : List Nat) (start len : Nat) : Res (List Nat) :=
  if start + len ≤ g.length then .ok ((g.drop start).take len) else .ub

/-- The compact form: pattern lengths with sample counts, the index array. -/
structure Out where
  patterns : List (Nat × Nat)
  descs : List Nat
  deriving DecidableEq, Repr

/-- The loop of `CreateCompactSampleGroups`, lines 353-388; failing asserts are `ub`. -/
def emit (g : List Nat) (n : Nat) (frag msb : Bool) (size total : Nat) (trk : List Tr) :
    Nat → Int → Out → Res Out
  | 0, _, o => .ok o
  | k + 1, next, o =>
    if next < 0 then .ub else
    (Mem.get trk next.toNat).bind fun e =>
    if e.plen = 0 ∨ e.count = 0 ∨ ¬ e.start < n ∨ ¬ e.start + e.plen - 1 < n then .ub
    else
      (slice g e.start e.plen).bind fun vs =>
      if total < o.descs.length + vs.length then .ub
      else emit g n frag msb size total trk k e.next
        ⟨o.patterns ++ [(e.plen, e.count)], o.descs ++ vs.map (encIndex frag msb size)⟩

/-- Largest field size needed, at least 4: lines 333-334 and 359-366. -/
def maxField (xs : List Nat) : Nat := xs.foldl (fun m x => max m (fieldSize x false)) 4

/-- Lines 389-396: bytes for the pattern entries. -/
def align (p c : Nat) : Nat × Nat :=
  if (p + c) % 8 ≠ 0 then (if p = 4 then (8, c) else (p, 8)) else (p, c)

/-- `CreateCompactSampleGroups`: SampleToGroupAtom.c 319-403, for the cells `cells` of which `n` are
in use. Result: the cells afterwards, the compact form, the sizes of the pattern length and sample
count fields. -/
def compact (cells : List Nat) (n : Nat) (frag msb : Bool) (field : Nat) :
    Res (List Nat × Out × Nat × Nat) :=
  if n * field ≥ 2147483648 then .ub
  else
    (normalise cells n).bind fun g =>
    (findAll g field n (List.range n) (initTrackers field n)).bind fun trk =>
    (combine n (n + 1) ((n : Int) - 1) ⟨trk, n, 0, 0⟩).bind fun c =>
    (emit g n frag msb field c.total c.trk c.patterns c.start ⟨[], []⟩).bind fun o =>
    if o.descs.length = c.total then
      .ok (g, o, align (maxField (o.patterns.map (·.1))) (maxField (o.patterns.map (·.2))))
    else .ub

/-! ### Writing and reading -/

/-- `SetFieldSize`: SampleToGroupAtom.c 131-150; the failing assert is `none`. -/
def sizeBits (field : Nat) : Option Nat :=
  if field = 4 then some 0 else if field = 8 then some 1 else if field = 16 then some 2
  else if field = 32 then some 3 else none

/-- The compact state of an atom: `compressedGroup`, the sizes of the index, pattern length and
sample count fields, the flag and the optional grouping type parameter. -/
structure Compact where
  out : Out
  isize : Nat
  psize : Nat
  csize : Nat
  msb : Bool
  groupingType : Nat
  param : Option Nat
  deriving DecidableEq, Repr

/-- Lines 670-678 of `serialize`. -/
def flagsOf (c : Compact) : Option Nat :=
  (sizeBits c.isize).bind fun i => (sizeBits c.csize).bind fun k => (sizeBits c.psize).bind fun p =>
  some (i ||| k <<< 2 ||| p <<< 4 ||| (if c.msb then 0x80 else 0) ||| (if c.param.isSome then 0x40 else 0))

/-- `PackData`: SampleToGroupAtom.c 619-660. With `nonByteBoundary` a nibble is put into the last byte
written. The callers ignore an error of `PackData`; then the closing assertion fails. The model
reports the error. -/
def pack (field : Nat) (nonByteBoundary : Bool) (v : Nat) : W :=
  if field = 4 then
    (if nonByteBoundary then fun s =>
      match s.out.getLast? with
      | none => .ub
      | some b => put8 (b.toNat ||| (v &&& 0xF)) { s with out := s.out.dropLast }
     else put8 w32(v <<< 4))
  else if field = 8 then put8 v
  else if field = 16 then put16 v
  else if field = 32 then put32 v
  else W.fail .badParam

/-- Lines 740-745: the index array, from index `i` on. -/
def packIndices (size : Nat) : Nat → List Nat → W
  | _, [] => W.skip
  | i, v :: vs => pack size (i % 2 = 1) v ;; packIndices size (i + 1) vs

/-- `'csgp'` -/
def typeCsgp : Nat := 0x63736770

/-- `calculateSize`: SampleToGroupAtom.c 782-801, compact form. -/
def calcSize (c : Compact) : Nat :=
  w32(w32(w32(12 + 8) + (if c.param.isSome then 4 else 0)) +
    w32(w32(w32(c.out.patterns.length * w32(c.psize + c.csize)) + w32(c.out.descs.length * c.isize)) + 4) / 8)

/-- `serialize`: SampleToGroupAtom.c 662-753, compact form. -/
def serialize (version flags : Nat) (c : Compact) : W :=
  serFull (calcSize c) typeCsgp version flags ;; put32 c.groupingType ;;
  (match c.param with | some v => put32 v | none => W.skip) ;;
  put32 c.out.patterns.length ;;
  W.each (fun e => pack c.psize false e.1 ;; pack c.csize (c.psize = 4) e.2) c.out.patterns ;;
  packIndices c.isize 0 c.out.descs ;; W.assertFull

/-- A call whose error is ignored and whose output is then used. -/
def orBad {α : Type} (p : P α) : P α := fun s =>
  match p s with
  | .err _ => .ub
  | r => r

/-- `GetData`: SampleToGroupAtom.c 575-617; the last argument is the pending nibble
(`upperNibble`). The callers ignore the error: what they then use is indeterminate (`ub`). -/
def getData (field : Nat) (nib : Option Nat) : P (Nat × Option Nat) :=
  orBad (
    if field = 4 then
      match nib with
      | some v => pure (v, none)
      | none => do
        let b ← get8
        pure (b >>> 4, some (b &&& 0xF))
    else if field = 8 then do let v ← get8; pure (v, nib)
    else if field = 16 then do let v ← get16; pure (v, nib)
    else if field = 32 then do let v ← get32; pure (v, nib)
    else P.fail .badParam)

/-- Lines 936-950: the pattern entries. -/
def getEntries (psize csize : Nat) : Nat → Option Nat → P (List (Nat × Nat) × Option Nat)
  | 0, nib => pure ([], nib)
  | k + 1, nib => do
    let r ← getData psize nib
    let r' ← getData csize r.2
    let rs ← getEntries psize csize k r'.2
    pure ((r.1, r'.1) :: rs.1, rs.2)

/-- Lines 961-977: the meaning of a stored index. -/
def readIndex (msb : Bool) (size v : Nat) : Nat :=
  if v &&& (4294967295 - (if msb then 4294967295 >>> (32 - size + 1) else 4294967295)) ≠ 0 then
    w32((v &&& (if msb then 4294967295 >>> (32 - size + 1) else 4294967295)) + 0x10000)
  else v &&& (if msb then 4294967295 >>> (32 - size + 1) else 4294967295)

/-- Number of characters that `%d` prints for an unsigned 32-bit number. -/
def decLen (v : Nat) : Nat :=
  if v < 10 then 1 else if v < 100 then 2 else if v < 1000 then 3 else if v < 10000 then 4
  else if v < 100000 then 5 else if v < 1000000 then 6 else if v < 10000000 then 7
  else if v < 100000000 then 8 else if v < 1000000000 then 9 else if v < 2147483648 then 10
  else 1 + decLenAbs (4294967296 - v)
where
  decLenAbs (v : Nat) : Nat :=
    if v < 10 then 1 else if v < 100 then 2 else if v < 1000 then 3 else if v < 10000 then 4
    else if v < 100000 then 5 else if v < 1000000 then 6 else if v < 10000000 then 7
    else if v < 100000000 then 8 else if v < 1000000000 then 9 else 10

/-- Lines 964-985: one pattern entry, number `i`, from its sample `j` on; `start` is the cell of its
first sample. Line 979 prints each index read into `msgString`, 80 bytes, at offset `2 i`, with a
space and a terminator. -/
def fill (isize : Nat) (msb : Bool) (i start plen : Nat) :
    Nat → Nat → List Nat → Option Nat → P (List Nat × Option Nat)
  | 0, _, cells, nib => pure (cells, nib)
  | k + 1, j, cells, nib =>
    if j < plen then do
      let r ← getData isize nib
      let cells ← P.lift (Mem.set cells (start + j) (readIndex msb isize r.1))
      if 2 * i + decLen (readIndex msb isize r.1) + 2 > 80 then P.bad else
      fill isize msb i start plen k (j + 1) cells r.2
    else if plen = 0 then P.bad
    else do
      let v ← P.lift (Mem.get cells (start + j % plen))
      let cells ← P.lift (Mem.set cells (start + j) v)
      fill isize msb i start plen k (j + 1) cells nib

/-- Lines 958-986: all pattern entries. -/
def fillAll (isize : Nat) (msb : Bool) :
    List (Nat × Nat) → Nat → Nat → List Nat → Option Nat → P (List Nat)
  | [], _, _, cells, _ => pure cells
  | e :: es, i, start, cells, nib => do
    let r ← fill isize msb i start e.1 e.2 0 cells nib
    fillAll isize msb es (i + 1) (start + e.2) r.1 r.2

/-- `createFromInputStream`: SampleToGroupAtom.c 841-856 and 893-997, compact form. Result:
version and flags, grouping type, parameter, the atom. -/
def parseBody (junk : Nat → Nat) (_ : Hdr) : P ((Nat × Nat) × Nat × Option Nat × Sbgp.Sbgp) := do
  let vf ← getVersionFlags
  let isize := 4 <<< (vf.2 &&& 3)
  let csize := 4 <<< ((vf.2 &&& 0xC) >>> 2)
  let psize := 4 <<< ((vf.2 &&& 0x30) >>> 4)
  if (psize + csize) % 8 ≠ 0 then P.fail .badParam else
  let gt ← get32
  let param ← (if vf.2 &&& 0x40 ≠ 0 then do let v ← get32; pure (some v) else pure none)
  let n ← get32
  let es ← getEntries psize csize n none
  let t := { Sbgp.create false with
    count := w32((es.1.map (·.2)).sum), msb := decide (vf.2 &&& 0x80 ≠ 0) }
  let cells ← fillAll isize t.msb es.1 0 0 (Sbgp.ensureSize junk t w32(t.count * 4)).cells es.2
  pure (vf, gt, param, { Sbgp.ensureSize junk t w32(t.count * 4) with cells := cells })

end Verif.Csgp
