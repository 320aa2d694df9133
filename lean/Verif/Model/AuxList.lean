import Verif.Model.AuxInfo

/-!
# Listing the kinds of sample auxiliary information

`MP4GetSampleAuxiliaryInformation`, MP4Media.c 2337-2394. The handles are used without following them: `(u32 *)aux_info_types` is the
address of the record of the handle (MP4Handle.c 26-34), so the values are stored over this record. The record is that of a machine with
pointers of 64 bits, stored from the low byte on. Allocation does not fail.
-/

namespace Verif.AuxInfo

/-- `handleStruct`: MP4Handle.c 26-34; addresses are numbers. -/
structure Rec where
  data : Nat
  trueData : Nat
  signature : Nat
  size : Nat
  alloc : Nat
  offset : Nat
  deriving DecidableEq, Repr

def le : Nat → Nat → Bytes
  | 0, _ => []
  | n + 1, v => UInt8.ofNat (v % 256) :: le n (v / 256)

def unle : Bytes → Nat
  | [] => 0
  | b :: l => b.toNat + 256 * unle l

/-- The record as 32 bytes. -/
def Rec.bytes (r : Rec) : Bytes :=
  le 8 r.data ++ (le 8 r.trueData ++ (le 4 r.signature ++ (le 4 r.size ++ (le 4 r.alloc ++ le 4 r.offset))))

def Rec.of (bs : Bytes) : Rec where
  data := unle (bs.take 8)
  trueData := unle ((bs.drop 8).take 8)
  signature := unle ((bs.drop 16).take 4)
  size := unle ((bs.drop 20).take 4)
  alloc := unle ((bs.drop 24).take 4)
  offset := unle ((bs.drop 28).take 4)

/-- `MP4SetHandleSize`: MP4Handle.c 97-128; `p` is the address of a new block. -/
def Rec.setSize (r : Rec) (n p : Nat) : Res Rec :=
  if r.signature ≠ 0x1234 then .err .badParam
  else if r.alloc ≥ n then .ok { r with size := n }
  else .ok { r with trueData := p, data := p + r.offset, size := n, alloc := n }

/-- Storing an array over a record. -/
def Rec.store (r : Rec) (vals : Bytes) : Res Rec :=
  if vals.length ≤ 32 then .ok (.of (vals ++ r.bytes.drop vals.length)) else .ub

/-- `MP4GetSampleAuxiliaryInformation`: MP4Media.c 2337-2394, for the records of the three handles, which are different ones. -/
def list (saiz : List Saiz.Box) (f t p : Rec) (newF newT newP : Nat) : Res (Nat × Rec × Rec × Rec) := do
  let f ← f.setSize w32(saiz.length) newF
  let t ← t.setSize w32(saiz.length * 4) newT
  let p ← p.setSize w32(saiz.length * 4) newP
  let f ← f.store (saiz.map fun z => UInt8.ofNat z.flags)
  let t ← t.store (saiz.flatMap fun z => le 4 z.auxType)
  let p ← p.store (saiz.flatMap fun z => le 4 z.auxParam)
  .ok (saiz.length, f, t, p)

end Verif.AuxInfo
