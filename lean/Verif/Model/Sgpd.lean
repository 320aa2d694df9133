import Verif.Core.Box

/-!
# Sample group descriptions: SampleGroupDescriptionAtom.c

The array `groups` of `groupCount` entries is a list of byte strings (an entry's `groupSize` is the
length of its string); it grows by one entry at a time and is only indexed after a range check, so
that the allocation itself is not modelled. Counts and sizes are below 2^32 by hypothesis.
-/

namespace Verif.Sgpd

/-- The loop of `findGroupDescriptionIdx`, from index `i` on. -/
def findFrom (d : Bytes) : Nat → List Bytes → Option Nat
  | _, [] => none
  | i, p :: ps => if p.length ≠ d.length then findFrom d (i + 1) ps
    else if p = d then some (i + 1) else findFrom d (i + 1) ps

/-- `findGroupDescriptionIdx`: SampleGroupDescriptionAtom.c 100-130. -/
def find (gs : List Bytes) (d : Bytes) : Res Nat :=
  if d.length = 0 then .err .badParam
  else match findFrom d 0 gs with
    | some i => .ok i
    | none => .err .notFound

/-- `addGroupDescription`: SampleGroupDescriptionAtom.c 45-77. -/
def add (gs : List Bytes) (d : Bytes) : Res (List Bytes × Nat) :=
  match find gs d with
  | .err .notFound => .ok (gs ++ [d], gs.length + 1)
  | _ => .err .badParam

/-- `getGroupDescription`: SampleGroupDescriptionAtom.c 79-98. -/
def get (gs : List Bytes) (index : Nat) : Res Bytes :=
  if index < 1 ∨ index > gs.length then .err .badParam
  else match gs[index - 1]? with
    | some d => .ok d
    | none => .ub

/-- `default_length` after the loop of `calculateSize`: lines 186-196. -/
def defaultLength : List Bytes → Nat
  | [] => 0
  | g :: gs => gs.foldl (fun d x => if x.length ≠ d then 0 else d) g.length

/-- `calculateSize`: SampleGroupDescriptionAtom.c 169-205; the sum of the lengths is taken at once.
-/
def calcSize (gs : List Bytes) : Nat :=
  w32(12 + 12 + (gs.map List.length).sum + (if defaultLength gs = 0 then 4 * gs.length else 0))

/-- `'sgpd'` -/
def typeSgpd : Nat := 0x73677064

/-- The body of the loop of `serialize`. -/
def putEntry (deflt : Nat) (g : Bytes) : W :=
  (if deflt = 0 then put32 g.length else if g.length = deflt then W.skip else W.bad) ;; putBytes g

/-- `serialize`: SampleGroupDescriptionAtom.c 132-167; the version is 1 for atoms made by the
library. `calculateSize`, which runs before, asserts that there is an entry. -/
def serialize (version flags groupingType : Nat) (gs : List Bytes) : W :=
  if gs = [] then W.bad else
  serFull (calcSize gs) typeSgpd version flags ;;
  put32 groupingType ;; put32 (defaultLength gs) ;; put32 gs.length ;;
  W.each (putEntry (defaultLength gs)) gs ;; W.assertFull

/-- The body of the loop of `createFromInputStream`. -/
def getEntry (h : Hdr) (version deflt : Nat) : P Bytes := do
  if version ≥ 1 then
    if deflt = 0 then do
      let n ← get32
      getBytes n
    else getBytes deflt
  else do
    let k ← P.bytesRead
    if h.size > k then getBytes (h.size - k) else P.bad

/-- `createFromInputStream`: SampleGroupDescriptionAtom.c 207-273; result: version, flags, grouping
type, descriptions. -/
def parseBody (h : Hdr) : P ((Nat × Nat) × Nat × List Bytes) := do
  let vf ← getVersionFlags
  let gt ← get32
  let deflt ← (if vf.1 ≥ 1 then get32 else pure 0)
  let _ ← (if vf.1 ≥ 2 then get32 else pure 0)
  let n ← get32
  let gs ← P.repeat n (getEntry h vf.1 deflt)
  pure (vf, gt, gs)

end Verif.Sgpd
