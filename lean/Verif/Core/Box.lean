import Verif.Core.Codec

/-!
# Boxes: the generic box parser and the closing assertion of serializers
-/

namespace Verif

/-- `assert(self->bytesWritten == self->size)` at the end of a `serialize` function. -/
def W.assertFull : W := fun s => if s.out.length = s.size then .ok s else .ub

/-- `SERIALIZE_DESCRIPTOR`, `SERIALIZE_ATOM`: MP4Impl.h 488-514, for a member whose size was
computed as `size`. -/
def nested (size : Nat) (w : W) : W := fun s =>
  if w32(s.out.length + size) > s.size then .err .ioErr
  else (runW size w).bind fun bs => .ok { s with out := s.out ++ bs }

/-- The fields of the prototype atom filled by the header parser. -/
structure Hdr where
  size : Nat
  type : Nat
  uuid : Bytes
  size64 : Nat
  /-- `bytesRead` handed to the body parser. -/
  hlen : Nat
  deriving DecidableEq, Repr

/-- `MP4ExtendedAtomType`, `'uuid'`: MP4Atoms.h. -/
def typeUuid : Nat := 0x75756964

/-- Four-character code. -/
def fcc (a b c d : Char) : Nat :=
  ((a.toNat * 256 + b.toNat) * 256 + c.toNat) * 256 + d.toNat

/-- The header part of `MP4ParseAtomUsingProtoList`: MP4Atoms.c 797-852. Order as in the code:
size, range check against the bytes available, type, uuid, 64-bit size. The subtraction
`atomProto->size - 4` is a `u32` one. A size of 0 means "to the end of the stream"; when that does
not fit 32 bits the code sets size 1 and then (lines 835-849) reads 8 more bytes as the size. -/
def parseHeader (inp : Bytes) : Res (Hdr × Bytes) := do
  let (size0, r) ← rd32 inp
  let the := r.length + 4
  let size := if size0 = 0 then (if the < 4294967296 then the else 1) else size0
  if size ≠ 1 ∧ w32(size + 4294967292) > r.length then .err .badData else
  let (type, r) ← rd32 r
  let (uuid, r, n) ← (if type = typeUuid then
      (if r.length < 16 then .err .ioErr else .ok (r.take 16, r.drop 16, 24))
    else .ok ([], r, 8) : Res (Bytes × Bytes × Nat))
  let (size64, r, n) ← (if size = 1 then do
      let (hi, r) ← rd32 r
      let (lo, r) ← rd32 r
      .ok (hi * 4294967296 + lo, r, n + 8)
    else .ok (0, r, n) : Res (Nat × Bytes × Nat))
  if size ≠ 1 ∧ size < n then .err .badData else
  .ok (⟨size, type, uuid, size64, n⟩, r)

/-- `MP4ParseAtomUsingProtoList`: MP4Atoms.c 768-904: header, body parser of the atom class, then
the bytes the body left unread inside the declared size are skipped (lines 871-897; a body that
read too much is not detected, and skipping stops silently at the end of the stream). -/
def parseAtom {α : Type u} (body : Hdr → P α) (inp : Bytes) : Res (α × Hdr × Bytes) :=
  match parseHeader inp with
  | .ok (h, r) =>
    match body h ⟨r, h.hlen⟩ with
    | .ok (a, s) =>
      let consumed := inp.length - s.rest.length
      let declared := if h.size = 1 then h.size64 else h.size
      .ok (a, h, s.rest.drop (declared - consumed))
    | .err e => .err e
    | .ub => .ub
  | .err e => .err e
  | .ub => .ub

/-- `GETATOM`: MP4Impl.h 211-214: parse a child box; the parent's `bytesRead` grows by the child's
32-bit `size` field. -/
def getAtom {α : Type u} (body : Hdr → P α) : P α := fun s =>
  match parseAtom body s.rest with
  | .ok (a, h, r) => .ok (a, ⟨r, s.read + h.size⟩)
  | .err e => .err e
  | .ub => .ub

end Verif
