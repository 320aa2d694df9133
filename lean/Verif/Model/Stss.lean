import Verif.Core.Box
import Verif.Core.Mem

/-!
# Sync sample table: SyncSampleAtom.c, and its use in SampleTableAtom.c
-/

namespace Verif.Stss

/-- `MP4SyncSampleAtom`: MP4Atoms.h 1295-1305. `cells` is the array `sampleNumbers` (empty for
NULL). -/
structure Stss where
  count : Nat
  alloc : Nat
  flag : Nat
  cells : List Nat
  deriving DecidableEq, Repr

/-- `MP4CreateSyncSampleAtom`: SyncSampleAtom.c 238-261. -/
def create : Stss := ⟨0, 0, 0, []⟩

/-- The loop of `isSyncSample` over the entries. -/
def scan (n : Nat) : List Nat → Bool
  | [] => false
  | x :: r => if n = x then true else if n < x then false else scan n r

/-- `isSyncSample`: SyncSampleAtom.c 45-78. -/
def isSyncSample (t : Stss) (n : Nat) : Res Bool :=
  if n = 0 then .err .badParam
  else if t.count ≤ t.cells.length then .ok (scan n (t.cells.take t.count)) else .ub

/-- Number of samples before the batch that get an entry: lines 104-133. -/
def backFill (t : Stss) (begin : Nat) : Nat :=
  if t.count = 0 ∧ t.flag = 0 then pred32 begin else 0

/-- `nonSyncFlag` after lines 104-133. -/
def newFlag (t : Stss) (k : Nat) : Nat :=
  if t.count = 0 then (if t.flag = 0 then 1 else if k = 0 then 1 else 0) else t.flag

/-- `newSampleCount` -/
def newCount (t : Stss) (begin k : Nat) : Nat :=
  if t.count = 0 then w32(k + backFill t begin) else w32(k + t.count)

/-- Lines 134-145: `allocatedSize` and the array. -/
def makeRoom (junk : Nat → Nat) (t : Stss) (newSize : Nat) : Nat × List Nat :=
  if newSize > t.alloc then
    (max w32(t.alloc + 1024) newSize, Mem.realloc junk t.cells (max w32(t.alloc + 1024) newSize / 4))
  else (t.alloc, t.cells)

/-- `addSamples`: SyncSampleAtom.c 80-166, for a handle (not NULL) holding `offs`. -/
def addSamples (junk : Nat → Nat) (t : Stss) (begin n : Nat) (offs : List Nat) : Res Stss :=
  if begin = 0 then .err .badParam
  else if offs.any fun o => o = 0 ∨ o > n then .err .badParam
  else
    (Mem.store (makeRoom junk t w32(newCount t begin offs.length * 4)).2 t.count
      ((List.range (backFill t begin)).map (· + 1) ++ offs.map fun o => w32(begin + (o - 1)))).bind fun cells =>
    .ok ⟨newCount t begin offs.length, (makeRoom junk t w32(newCount t begin offs.length * 4)).1,
      newFlag t offs.length, cells⟩

/-- The part of a track's sample table that matters here: number of samples and the optional sync
sample table. -/
structure St where
  samples : Nat
  stss : Option Stss
  deriving DecidableEq, Repr

/-- The steps of `addSamples`, SampleTableAtom.c 255-430, that concern sync samples (lines 318-343,
361-365); `sync = none` is a NULL handle. -/
def tableAdd (junk : Nat → Nat) (s : St) (n : Nat) (sync : Option (List Nat)) : Res St :=
  match sync with
  | none => .ok ⟨w32(s.samples + n), s.stss⟩
  | some offs =>
    match (if s.stss = none ∧ offs.length ≠ n then some create else s.stss) with
    | none => .ok ⟨w32(s.samples + n), none⟩
    | some t => (addSamples junk t w32(s.samples + 1) n offs).bind fun t =>
        .ok ⟨w32(s.samples + n), some t⟩

/-- Whether a sample is reported as sync: MP4Media.c 1862-1869; without a table every sample is. -/
def isSync (s : St) (n : Nat) : Res Bool :=
  match s.stss with
  | none => .ok true
  | some t => isSyncSample t n

/-- `'stss'` -/
def typeStss : Nat := 0x73747373

/-- `calculateSize`: SyncSampleAtom.c 190-203. -/
def calcSize (nums : List Nat) : Nat := w32(12 + w32(4 + w32(4 * nums.length)))

/-- `serialize`: SyncSampleAtom.c 168-188, for the entries `nums`. -/
def serialize (version flags : Nat) (nums : List Nat) : W :=
  serFull (calcSize nums) typeStss version flags ;; put32 nums.length ;; W.each put32 nums ;; W.assertFull

/-- `createFromInputStream`: SyncSampleAtom.c 205-236. -/
def parseBody (_ : Hdr) : P ((Nat × Nat) × Stss) := do
  let vf ← getVersionFlags
  let n ← get32
  let nums ← P.repeat n get32
  if n ≤ w32(n + 1) then
    pure (vf, ⟨n, w32(w32(n + 1) * 4), 0, nums ++ [0]⟩)
  else P.bad

end Verif.Stss
