import Verif.Core.Basic

/-!
# Serialisation (PUT macros) and parsing (GET macros)

`be n v` is the specification of an `n`-byte big-endian integer; the writer `W` models the
`PUT*` macros of MP4Impl.h and the parser `P` models the `GET*` macros reading through an
input stream (MP4MemoryInputStream.c, MP4FileMappingInputStream.c).
-/

namespace Verif

/-! ## Specification: big-endian integers -/

/-- The `n`-byte big-endian representation of `v` (reduced modulo `256^n`). -/
def be : Nat → Nat → Bytes
  | 0, _ => []
  | n + 1, v => UInt8.ofNat (v / 256 ^ n) :: be n v

/-- The value of a big-endian byte string. -/
def unbe (bs : Bytes) : Nat := bs.foldl (fun a b => a * 256 + b.toNat) 0

@[simp] theorem be_length (n v : Nat) : (be n v).length = n := by
  induction n with
  | zero => rfl
  | succ n ih => simp [be, ih]

/-! ## The writer -/

/-- State of a `serialize` function: the bytes stored so far (`bytesWritten` is their number)
and the `size` field of the box, computed by `calculateSize` before. The buffer handed to
`serialize` has exactly `size` bytes. -/
structure WS where
  out : Bytes
  size : Nat
  deriving DecidableEq, Repr

/-- A piece of a `serialize` function. -/
def W := WS → Res WS

/-- The guard shared by all `PUT` macros, `(self->bytesWritten + n) > self->size` computed in
`u32`, followed by the store of `bs` (MP4Impl.h 250-410). -/
def putRaw (bs : Bytes) : W := fun s =>
  if w32(s.out.length + bs.length) > s.size then .err .ioErr
  else .ok { s with out := s.out ++ bs }

/-- `PUTBYTES( src, len )`: MP4Impl.h 250-258. -/
def putBytes (bs : Bytes) : W := putRaw bs

/-- `PUT8`, `PUT8_V`: MP4Impl.h 260-278. -/
def put8 (v : Nat) : W := putRaw [UInt8.ofNat v]

/-- `PUT16`, `PUT16_V`: MP4Impl.h 280-302. -/
def put16 (v : Nat) : W := putRaw [UInt8.ofNat (v >>> 8 &&& 0xFF), UInt8.ofNat (v &&& 0xFF)]

/-- `PUT24`, `PUT24_V`: MP4Impl.h 304-330. -/
def put24 (v : Nat) : W :=
  putRaw [UInt8.ofNat (v >>> 16 &&& 0xFF), UInt8.ofNat (v >>> 8 &&& 0xFF), UInt8.ofNat (v &&& 0xFF)]

/-- `PUT32`, `PUT32_V`: MP4Impl.h 332-362. -/
def put32 (v : Nat) : W :=
  putRaw [UInt8.ofNat (v >>> 24 &&& 0xFF), UInt8.ofNat (v >>> 16 &&& 0xFF),
    UInt8.ofNat (v >>> 8 &&& 0xFF), UInt8.ofNat (v &&& 0xFF)]

/-- `PUT64`, `PUT64_V`: MP4Impl.h 364-410. -/
def put64 (v : Nat) : W :=
  putRaw [UInt8.ofNat (v >>> 56 &&& 0xFF), UInt8.ofNat (v >>> 48 &&& 0xFF),
    UInt8.ofNat (v >>> 40 &&& 0xFF), UInt8.ofNat (v >>> 32 &&& 0xFF),
    UInt8.ofNat (v >>> 24 &&& 0xFF), UInt8.ofNat (v >>> 16 &&& 0xFF),
    UInt8.ofNat (v >>> 8 &&& 0xFF), UInt8.ofNat (v &&& 0xFF)]

/-- No output. -/
def W.skip : W := fun s => .ok s

/-- An error raised inside a `serialize` function (`BAILWITHERROR`). -/
def W.fail (e : Err) : W := fun _ => .err e

/-- Undefined behaviour inside a `serialize` function. -/
def W.bad : W := fun _ => .ub

/-- Two pieces one after the other; the first error ends the function (`goto bail`). -/
def W.seq (a b : W) : W := fun s => (a s).bind b

infixr:60 " ;; " => W.seq

/-- A `for` loop whose body writes one element. -/
def W.each {α : Type u} (f : α → W) : List α → W
  | [] => W.skip
  | x :: xs => f x ;; W.each f xs

/-- Run a `serialize` function whose box declares `size` bytes; `serialize` starts with
`bytesWritten = 0`. -/
def runW (size : Nat) (w : W) : Res Bytes :=
  match w ⟨[], size⟩ with
  | .ok s => .ok s.out
  | .err e => .err e
  | .ub => .ub

/-- `MP4SerializeCommonBaseAtomFields`: MP4Atoms.c 945-970, for a box whose 32-bit `size` is not 1
(the large form is in `Model/Mdat`). The two asserts require non-zero size and type. -/
def serBase (size type : Nat) : W := put32 size ;; put32 type

/-- `MP4SerializeCommonFullAtomFields`: MP4Atoms.c 972-984. -/
def serFull (size type version flags : Nat) : W :=
  serBase size type ;; put8 version ;; put24 flags

/-! ## The parser -/

/-- State while reading a box: the unread bytes of the stream (`available` is their number) and
`bytesRead` of the box. -/
structure PS where
  rest : Bytes
  read : Nat
  deriving DecidableEq, Repr

/-- A piece of a `createFromInputStream` function. -/
def P (α : Type u) := PS → Res (α × PS)

namespace P

instance : Monad P where
  pure a := fun s => .ok (a, s)
  bind p f := fun s =>
    match p s with
    | .ok (a, s') => f a s'
    | .err e => .err e
    | .ub => .ub

/-- `BAILWITHERROR`. -/
def fail {α : Type u} (e : Err) : P α := fun _ => .err e

/-- Undefined behaviour in a parser. -/
def bad {α : Type u} : P α := fun _ => .ub

/-- The current `bytesRead`. -/
def bytesRead : P Nat := fun s => .ok (s.read, s)

/-- An operation that does not read. -/
def lift {α : Type u} (r : Res α) : P α := fun s =>
  match r with
  | .ok a => .ok (a, s)
  | .err e => .err e
  | .ub => .ub

/-- The current `inputStream->available`. -/
def available : P Nat := fun s => .ok (s.rest.length, s)

end P

/-- `readData` of one byte: MP4MemoryInputStream.c 194-220 (`CHECK_AVAIL(1)`), value widened. -/
def rd8 : Bytes → Res (Nat × Bytes)
  | [] => .err .ioErr
  | b :: r => .ok (b.toNat, r)

/-- `read16`: MP4MemoryInputStream.c 93-117. -/
def rd16 (r : Bytes) : Res (Nat × Bytes) :=
  if r.length < 2 then .err .ioErr else do
    let (a, r) ← rd8 r
    let (b, r) ← rd8 r
    pure (a <<< 8 ||| b, r)

/-- `read32`: MP4MemoryInputStream.c 119-141. -/
def rd32 (r : Bytes) : Res (Nat × Bytes) :=
  if r.length < 4 then .err .ioErr else do
    let (hw, r) ← rd16 r
    let (lw, r) ← rd16 r
    pure (w32(hw <<< 16) ||| lw, r)

/-- `GET8`, `GET8_V`: MP4Impl.h 191-209. -/
def get8 : P Nat := fun s => do
  let (v, r) ← rd8 s.rest
  pure (v, ⟨r, s.read + 1⟩)

/-- `GET16`, `GET16_V`: MP4Impl.h 171-189. -/
def get16 : P Nat := fun s => do
  let (v, r) ← rd16 s.rest
  pure (v, ⟨r, s.read + 2⟩)

/-- `GET32`, `GET32_V`: MP4Impl.h 151-169. -/
def get32 : P Nat := fun s => do
  let (v, r) ← rd32 s.rest
  pure (v, ⟨r, s.read + 4⟩)

/-- `GET64`, `GET64_V`: MP4Impl.h 91-149: two `read32`, `val64 <<= 32; val64 += val32`. -/
def get64 : P Nat := fun s => do
  let (hi, r) ← rd32 s.rest
  let (lo, r) ← rd32 r
  pure (w64(w64(hi <<< 32) + lo), ⟨r, s.read + 8⟩)

/-- `GETBYTES`, `GETBYTES_V`: MP4Impl.h 70-89 through `readData` (a length of 2^32 or more cannot
occur: the length argument of every caller is a `u32`). -/
def getBytes (n : Nat) : P Bytes := fun s =>
  if s.rest.length < n then .err .ioErr
  else .ok (s.rest.take n, ⟨s.rest.drop n, s.read + n⟩)

/-- A `for` loop reading `n` elements. -/
def P.repeat {α : Type u} (n : Nat) (p : P α) : P (List α) :=
  match n with
  | 0 => pure []
  | n + 1 => do
    let x ← p
    let xs ← P.repeat n p
    pure (x :: xs)

/-- `fullAtomCreateFromInputStream`: MP4Atoms.c 105-126: one `read32`, split into version and
flags. -/
def getVersionFlags : P (Nat × Nat) := do
  let v ← get32
  pure (v >>> 24, v &&& 0xFFFFFF)

end Verif
