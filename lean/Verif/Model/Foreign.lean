import Verif.Core.Box

/-!
# Boxes of the caller
UnknownAtom.c; MP4UserData.c `MP4NewForeignAtom`, `MP4GetForeignAtom`, `MP4NewUUIDAtom`.

Simplifications: allocation succeeds (also of no bytes). `known` tells the types that `MP4CreateAtom` has a class for, where the box is read; there is
none for `uuid` (MP4Atoms.c 156-700). Meeting one of them counts as undefined, as `MP4GetForeignAtom` casts without a test.
-/

namespace Verif.Foreign

/-- `MP4UnknownAtom`: MP4Atoms.h, what it has besides the base; `uuid` is the member of the base. -/
structure Atom where
  type : Nat
  uuid : Bytes
  data : Bytes
  deriving DecidableEq, Repr

/-- `MP4NewForeignAtom`: MP4UserData.c 207-236, with `MP4CreateUnknownAtom`, whose memory is cleared. -/
def newForeign (type : Nat) (payload : Bytes) : Atom := ⟨type, List.replicate 16 0, payload⟩

/-- `MP4NewUUIDAtom`: MP4UserData.c 261-292. -/
def newUuid (uuid payload : Bytes) : Atom := ⟨typeUuid, uuid, payload⟩

/-- `MP4GetForeignAtom`: MP4UserData.c 238-259. The identifier is left alone for other types. -/
def get (a : Atom) : Nat × Option Bytes × Bytes := (a.type, if a.type = typeUuid then some a.uuid else none, a.data)

/-- `calculateSize`: UnknownAtom.c 54-68. -/
def size (a : Atom) : Nat := w32(w32(8 + if a.type = typeUuid then 16 else 0) + a.data.length)

/-- `serialize`: UnknownAtom.c 34-52. The size and type may not be 0 (asserts in `MP4SerializeCommonBaseAtomFields`, MP4Atoms.c 955-956); a size of 1,
which stands for the large form, is only reached by overflow and counts as undefined here. -/
def ser (a : Atom) : W :=
  if a.type = 0 ∨ size a ≤ 1 then W.bad else
  serBase (size a) a.type ;; (if a.type = typeUuid then putBytes a.uuid else W.skip) ;; putBytes a.data ;; W.assertFull

/-- `createFromInputStream`: UnknownAtom.c 70-94, with the base, MP4Atoms.c 55-67. -/
def parse (known : Nat → Bool) (h : Hdr) : P Atom :=
  if known h.type then P.bad else do
    let br ← P.bytesRead
    let d ← getBytes w32(h.size + (4294967296 - br))
    pure ⟨h.type, h.uuid, d⟩

/-- The boxes one after the other. -/
def write : List Atom → Res Bytes
  | [] => .ok []
  | a :: l => (runW (size a) (ser a)).bind fun b => (write l).bind fun r => .ok (b ++ r)

/-- Boxes up to the end. Every one has at least eight bytes. -/
def read (known : Nat → Bool) : Nat → Bytes → Res (List Atom)
  | 0, _ => .ub
  | n + 1, b => if b.length = 0 then .ok [] else
    (parseAtom (parse known) b).bind fun r => (read known n r.2.2).bind fun l => .ok (r.1 :: l)

/-- Written and read `n` times. -/
def files (known : Nat → Bool) : Nat → List Atom → Res (List Atom)
  | 0, l => .ok l
  | n + 1, l => (write l).bind fun b => (read known (b.length + 1) b).bind fun l => files known n l

end Verif.Foreign
