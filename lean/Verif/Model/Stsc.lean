import Verif.Core.Box
import Verif.Spec.Chunks

/-!
# Sample-to-chunk table: SampleToChunkAtom.c
-/

namespace Verif.Stsc

/-- `MP4SampleToChunkAtom`: MP4Atoms.h 819-834; the entry list through its sequence behaviour. -/
structure Stsc where
  entries : List StscEntry
  foundNum : Nat
  foundFirst : Nat
  deriving DecidableEq, Repr

/-- A table after creation or parsing (`calloc`): no lookup has happened. -/
def ofEntries (es : List StscEntry) : Stsc := ⟨es, 0, 0⟩

/-- `setEntry`: SampleToChunkAtom.c 72-109. -/
def setEntry (es : List StscEntry) (firstChunk spc desc : Nat) : List StscEntry :=
  match es.getLast? with
  | some last => if last.spc = spc ∧ last.desc = desc then es else es ++ [⟨firstChunk, spc, desc⟩]
  | none => es ++ [⟨firstChunk, spc, desc⟩]

/-- Output parameters of `lookupSample`; `*outFirstSampleNumberInChunk` is not initialised. -/
structure Out where
  chunk : Nat
  desc : Nat
  firstSample : Option Nat
  deriving DecidableEq, Repr

/-- The assignments of lines 225-230 and 243-248. -/
def locate (n first : Nat) (p : StscEntry) : Out :=
  let off := w32(n + 4294967296 - first)
  let chunk := w32(p.first + off / p.spc)
  ⟨chunk, p.desc, some w32(w32(w32(chunk + 4294967296 - p.first) * p.spc) + first)⟩

/-- The loop of `lookupSample`: SampleToChunkAtom.c 215-256, over the entries from index `i` on.
Returns the outputs, `foundEntryNumber` and `firstSampleThisChunkRun`. -/
def lookLoop (n : Nat) : List StscEntry → Nat → Nat → Nat → Res (Out × Nat × Nat)
  | [], _, first, found => .ok (⟨0, 0, none⟩, found, first)
  | [p], i, first, _ =>
    if p.spc = 0 then .ub else .ok (locate n first p, i, first)
  | p :: q :: rest, i, first, found =>
    let run := w32(w32(q.first + 4294967296 - p.first) * p.spc)
    if n ≤ w32(first + run) then
      if p.spc = 0 then .ub else .ok (locate n first p, i, first)
    else lookLoop n (q :: rest) (i + 1) w32(first + run) found

/-- `lookupSample`: SampleToChunkAtom.c 185-262. -/
def lookup (t : Stsc) (n : Nat) : Res (Out × Stsc) :=
  if n = 0 then .err .badParam else
  let cached := t.foundFirst ≠ 0 ∧ t.foundFirst < n
  let first := if cached then t.foundFirst else 1
  let i := if cached then t.foundNum else 0
  match lookLoop n (t.entries.drop i) i first t.foundNum with
  | .ok (o, found, first) => .ok (o, { t with foundNum := found, foundFirst := first })
  | .err e => .err e
  | .ub => .ub

/-- `'stsc'` -/
def typeStsc : Nat := 0x73747363

/-- `calculateSize`: SampleToChunkAtom.c 293-306. -/
def calcSize (es : List StscEntry) : Nat := w32(12 + w32(4 + w32(12 * es.length)))

/-- `serialize`: SampleToChunkAtom.c 264-291. -/
def serialize (version flags : Nat) (es : List StscEntry) : W :=
  serFull (calcSize es) typeStsc version flags ;; put32 es.length ;;
  W.each (fun e => put32 e.first ;; put32 e.spc ;; put32 e.desc) es ;; W.assertFull

/-- The entry loop of `createFromInputStream`: SampleToChunkAtom.c 319-331. -/
def parseEntries : Nat → List StscEntry → P (List StscEntry)
  | 0, es => pure es
  | n + 1, es => do
    let f ← get32
    let c ← get32
    let d ← get32
    parseEntries n (setEntry es f c d)

/-- `createFromInputStream`: SampleToChunkAtom.c 308-338. -/
def parseBody (_ : Hdr) : P ((Nat × Nat) × List StscEntry) := do
  let vf ← getVersionFlags
  let n ← get32
  let es ← parseEntries n []
  pure (vf, es)

end Verif.Stsc
