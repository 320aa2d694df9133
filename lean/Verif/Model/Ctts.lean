import Verif.Core.Box

/-!
# Composition offset table: DecodingOffsetAtom.c, and its use in SampleTableAtom.c

Offsets are `s32` values in the table and `u32` values in the calls; here they are the common
32-bit pattern, a number below 2^32.
-/

namespace Verif.Ctts

/-- `MP4CompositionOffsetAtom`: `entries` are `(sampleCount, decodingOffset)`, the list through its
sequence behaviour; `cur` tells whether `currentEntry` points to the last entry or is NULL. -/
structure Ctts where
  entries : List (Nat × Nat)
  cur : Bool
  final : Nat
  deriving DecidableEq, Repr

def create : Ctts := ⟨[], false, 0⟩

/-- The loop of `getOffsetForSampleNumber`; `none` is an output parameter left alone. -/
def getLoop (n : Nat) : List (Nat × Nat) → Nat → Option Nat
  | [], _ => none
  | e :: es, acc => if w32(acc + e.1) ≥ n then some e.2 else getLoop n es w32(acc + e.1)

/-- `getOffsetForSampleNumber`: DecodingOffsetAtom.c 68-101. -/
def getOffset (t : Ctts) (n : Nat) : Option Nat := getLoop n t.entries 0

/-- `addSample`: DecodingOffsetAtom.c 103-129. -/
def addSample (t : Ctts) (offset : Nat) : Ctts :=
  let entries := match t.entries.getLast? with
    | some last =>
      if t.cur = true ∧ last.2 = offset then t.entries.dropLast ++ [(w32(last.1 + 1), offset)]
      else t.entries ++ [(1, offset)]
    | none => t.entries ++ [(1, offset)]
  ⟨entries, true, w32(t.final + 1)⟩

/-- Lines 142-157: zero offsets for the samples since the last one in the table. -/
def pad (t : Ctts) (begin : Nat) : Res Ctts :=
  if t.final ≠ 0 then
    if t.final ≥ begin then .err .badParam
    else if begin - t.final - 1 < 2147483648 then
      .ok ((List.replicate (begin - t.final - 1) 0).foldl addSample t)
    else .ok t
  else .ok t

/-- Lines 158-187, for a handle (not NULL) holding `offs`: the offsets added. -/
def offsetsFor (n : Nat) (offs : List Nat) : Res (List Nat) :=
  match offs with
  | [o] => .ok (if n ≠ 1 then List.replicate n o else [o])
  | _ => if offs.length ≠ n then .err .badParam else .ok offs

/-- `addSamples`: DecodingOffsetAtom.c 131-190. -/
def addSamples (t : Ctts) (begin n : Nat) (offs : List Nat) : Res Ctts :=
  (pad t begin).bind fun t => (offsetsFor n offs).bind fun os => .ok (os.foldl addSample t)

/-- The part of a track's sample table that matters here. -/
structure St where
  samples : Nat
  ctts : Option Ctts
  deriving DecidableEq, Repr

/-- The steps of `addSamples`, SampleTableAtom.c 255-430, that concern composition offsets (lines
297-317, 347-360); `offs = none` is a NULL handle. -/
def tableAdd (s : St) (n : Nat) (offs : Option (List Nat)) : Res St :=
  match offs with
  | none => .ok ⟨w32(s.samples + n), s.ctts⟩
  | some os => (addSamples (s.ctts.getD create) w32(s.samples + 1) n os).bind fun t =>
      .ok ⟨w32(s.samples + n), some t⟩

/-- The offset reported for a sample: MP4Media.c 1794-1805, `compositionOffset` being set to 0
first. -/
def offsetOf (s : St) (n : Nat) : Nat :=
  match s.ctts with
  | none => 0
  | some t => (getOffset t n).getD 0

/-- `'ctts'` -/
def typeCtts : Nat := 0x63747473

/-- `calculateSize`: DecodingOffsetAtom.c 221-236. -/
def calcSize (es : List (Nat × Nat)) : Nat := w32(12 + w32(4 + w32(8 * es.length)))

/-- `serialize`: DecodingOffsetAtom.c 192-219. -/
def serialize (version flags : Nat) (es : List (Nat × Nat)) : W :=
  serFull (calcSize es) typeCtts version flags ;; put32 es.length ;;
  W.each (fun e => put32 e.1 ;; put32 e.2) es ;; W.assertFull

/-- `createFromInputStream`: DecodingOffsetAtom.c 238-273. -/
def parseBody (_ : Hdr) : P ((Nat × Nat) × Ctts) := do
  let vf ← getVersionFlags
  let n ← get32
  let es ← P.repeat n (do
    let c ← get32
    let o ← get32
    pure (c, o))
  pure (vf, ⟨es, false, 0⟩)

end Verif.Ctts
