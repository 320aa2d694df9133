import Verif.Core.Box
import Verif.Core.Mem

/-!
# Sample dependencies: SampleDependencyAtom.c, and its use in SampleTableAtom.c
-/

namespace Verif.Sdtp

/-- `MP4SampleDependencyAtom`; `cells` is the array `dependency` (empty for NULL). -/
structure Sdtp where
  count : Nat
  alloc : Nat
  cells : Bytes
  deriving DecidableEq, Repr

def create : Sdtp := ⟨0, 0, []⟩

/-- `ensureSize`: SampleDependencyAtom.c 43-66; `allocation_size` is 4096. -/
def ensureSize (junk : Nat → UInt8) (t : Sdtp) (newSize : Nat) : Sdtp :=
  if newSize > t.alloc then
    ⟨t.count, max w32(t.alloc + 4096) newSize, Mem.realloc junk t.cells (max w32(t.alloc + 4096) newSize)⟩
  else t

/-- `addSamples`: SampleDependencyAtom.c 68-87. -/
def addSamples (junk : Nat → UInt8) (t : Sdtp) (n : Nat) : Res Sdtp :=
  (Mem.store (ensureSize junk t w32(t.count + n)).cells t.count (List.replicate n 0)).bind fun cells =>
  .ok ⟨w32(t.count + n), (ensureSize junk t w32(t.count + n)).alloc, cells⟩

/-- `sampleCount + sample_index` for a negative index, in `u32`. -/
def fromEnd (count : Nat) (index : Int) : Nat := u32i (count + index)

/-- `setSampleDependency`: SampleDependencyAtom.c 89-127. -/
def setDependency (t : Sdtp) (index : Int) (deps : Bytes) : Res Sdtp :=
  if index < 0 then
    (if deps.length > (-index).toNat then .err .badParam
     else if deps = [] then .ok t
     else (Mem.store t.cells (fromEnd t.count index) deps).bind fun c => .ok ⟨t.count, t.alloc, c⟩)
  else if w32(deps.length + index.toNat) > t.count then .err .badParam
  else (Mem.store t.cells index.toNat deps).bind fun c => .ok ⟨t.count, t.alloc, c⟩

/-- `getSampleDependency`: SampleDependencyAtom.c 129-145. -/
def getDependency (t : Sdtp) (n : Nat) : Res UInt8 :=
  if n < 1 then .err .badParam
  else if n > t.count then .ok 0
  else Mem.get t.cells (n - 1)

/-- The sample table as far as dependencies are concerned: number of samples, optional `sdtp`. -/
structure St where
  samples : Nat
  sdtp : Option Sdtp
  deriving DecidableEq, Repr

/-- The steps of `addSamples` about dependencies: SampleTableAtom.c 418-424. -/
def tableAdd (junk : Nat → UInt8) (s : St) (n : Nat) : Res St :=
  match s.sdtp with
  | none => .ok ⟨w32(s.samples + n), none⟩
  | some t => (addSamples junk t n).bind fun t => .ok ⟨w32(s.samples + n), some t⟩

/-- Lines 753-773 of `setSampleDependency`: the table, created if there is none. -/
def theTable (junk : Nat → UInt8) (s : St) : Res Sdtp :=
  match s.sdtp with
  | some t => .ok t
  | none => if s.samples > 0 then addSamples junk create s.samples else .ok create

/-- `setSampleDependency`: SampleTableAtom.c 746-781. The new state and the error returned, if any:
the table stays when the call is refused. -/
def tableSet (junk : Nat → UInt8) (s : St) (index : Int) (deps : Bytes) : Res (St × Option Err) :=
  (theTable junk s).bind fun t =>
  match setDependency t index deps with
  | .ok t' => .ok (⟨s.samples, some t'⟩, none)
  | .err e => .ok (⟨s.samples, some t⟩, some e)
  | .ub => .ub

/-- `getSampleDependency`: SampleTableAtom.c 783-804. -/
def tableGet (s : St) (n : Nat) : Res UInt8 :=
  match s.sdtp with
  | some t => getDependency t n
  | none => .ok 0

/-- `'sdtp'` -/
def typeSdtp : Nat := 0x73647470

/-- `calculateSize`: SampleDependencyAtom.c 165-180. -/
def calcSize (t : Sdtp) : Nat := w32(12 + t.count)

/-- `PUTBYTES(self->dependency, self->sampleCount)`: reads the first `count` cells. -/
def putCells (t : Sdtp) : W :=
  if t.count ≤ t.cells.length then putBytes (t.cells.take t.count) else W.bad

/-- `serialize`: SampleDependencyAtom.c 147-163. -/
def serialize (version flags : Nat) (t : Sdtp) : W :=
  serFull (calcSize t) typeSdtp version flags ;; putCells t ;; W.assertFull

/-- `size - bytesRead` in `u32`. -/
def remaining (size read : Nat) : Nat := if read ≤ size then size - read else size + 4294967296 - read

/-- `createFromInputStream`: SampleDependencyAtom.c 182-200. -/
def parseBody (h : Hdr) : P ((Nat × Nat) × Sdtp) := do
  let vf ← getVersionFlags
  let k ← P.bytesRead
  let bs ← getBytes (remaining h.size k)
  pure (vf, ⟨bs.length, (ensureSize (fun _ => 0) create bs.length).alloc,
    bs ++ List.replicate ((ensureSize (fun _ => 0) create bs.length).alloc - bs.length) 0⟩)

end Verif.Sdtp
