import Verif.Core.Box

/-!
# Sub-sample information box
SubSampleInformationAtom.c

The parallel arrays of the C structure are lists of records here. `entry_count` and each
`subsample_count` are the lengths of the lists; in the C code they are `u32`.
-/

namespace Verif.Subs

structure Sub where
  size : Nat
  priority : Nat
  discardable : Nat
  parameters : Nat
  deriving DecidableEq, Repr

structure Entry where
  delta : Nat
  subs : List Sub
  deriving DecidableEq, Repr

structure Box where
  version : Nat
  flags : Nat
  entries : List Entry
  deriving DecidableEq, Repr

def typeSubs : Nat := 0x73756273

/-- As created: MP4CreateSubSampleInformationAtom, lines 312-340. -/
def empty : Box := ⟨0, 0, []⟩

/-- `calculateSize`: lines 96-114. -/
def size (b : Box) : Nat :=
  w32(12 + (4 + b.entries.length * 6) +
    (b.entries.map fun e => e.subs.length * (if b.version = 1 then 10 else 8)).sum)

/-- One sub-sample: lines 74-86. -/
def putSub (version : Nat) (s : Sub) : W :=
  (if version = 1 then put32 s.size else put16 s.size) ;; put8 s.priority ;; put8 s.discardable ;; put32 s.parameters

/-- `serialize`: lines 59-94. -/
def serialize (b : Box) : W :=
  serFull (size b) typeSubs b.version b.flags ;; put32 b.entries.length ;;
  W.each (fun e => put32 e.delta ;; put16 e.subs.length ;; W.each (putSub b.version) e.subs) b.entries ;;
  W.assertFull

/-- The body of the inner loop: lines 284-296. -/
def getSub (version : Nat) : P Sub := do
  let size ← if version = 1 then get32 else get16
  let priority ← get8
  let discardable ← get8
  let parameters ← get32
  pure ⟨size, priority, discardable, parameters⟩

/-- One entry: lines 271-297. `TESTMALLOC` is applied to the count instead of the array: a count of
0 is taken for a failed allocation. -/
def getEntry (version : Nat) : P Entry := do
  let delta ← get32
  let n ← get16
  if n = 0 then P.fail .noMemory else do
    let subs ← P.repeat n (getSub version)
    pure ⟨delta, subs⟩

/-- `createFromInputStream`: lines 248-304. -/
def parse (_ : Hdr) : P Box := do
  let vf ← getVersionFlags
  let n ← get32
  let entries ← P.repeat n (getEntry vf.1)
  pure ⟨vf.1, vf.2, entries⟩

/-- The loop of `addEntry2`: lines 226-238, over four arrays. Reading past the end of one is
undefined. -/
def zipSubs : Nat → List Nat → List Nat → List Nat → List Nat → Res (List Sub)
  | 0, _, _, _, _ => .ok []
  | n + 1, a :: as, b :: bs, c :: cs, d :: ds => (zipSubs n as bs cs ds).bind fun l => .ok (⟨a, b, c, d⟩ :: l)
  | _ + 1, _, _, _, _ => .ub

/-- `addEntry2`: lines 181-246. The arrays are the contents of the handles. -/
def addEntry2 (b : Box) (delta count : Nat) (sizes priorities discardables parameters : List Nat) : Res Box :=
  (zipSubs count sizes priorities discardables parameters).bind fun subs =>
  .ok { b with
    version := if subs.any (fun s => s.size > 0xFFFF) then 1 else b.version
    entries := b.entries ++ [⟨delta, subs⟩] }

/-- `addEntry`: lines 116-179: the parameters are 0. -/
def addEntry (b : Box) (delta count : Nat) (sizes priorities discardables : List Nat) : Res Box :=
  addEntry2 b delta count sizes priorities discardables (List.replicate count 0)

end Verif.Subs
