import Verif.Core.Box
import Verif.Core.Mem

/-!
# The media data box and reading from it (MediaDataAtom.c, MdatDataHandler.c)
-/

namespace Verif.Mdat

/-- `MP4MediaDataAtom`: MP4Atoms.h 271-282. `data` is `NULL` or the allocated cells; all numbers
are `u64`. -/
structure T where
  data : Option Bytes
  dataSize : Nat
  alloc : Nat
  /-- File offset of the first data byte, for parsed boxes. -/
  dataOffset : Nat
  deriving DecidableEq, Repr

/-- `'mdat'`: MP4Atoms.h 71. -/
def typeMdat : Nat := fcc 'm' 'd' 'a' 't'

/-- `MP4CreateMediaDataAtom`: MediaDataAtom.c 282-308 (`calloc`). -/
def create : T := ⟨none, 0, 0, 0⟩

/-- The cells after growing to `k`: `realloc` of the old ones, or `calloc` (zeros). -/
def grow (junk : Nat → UInt8) (data : Option Bytes) (k : Nat) : Bytes :=
  match data with
  | some c => Mem.realloc junk c k
  | none => List.replicate k 0

/-- The store at the end of `addData` and `addMdat`:
`memcpy(self->data + self->dataSize, src, size); self->dataSize += size`. -/
def put (t : T) (bs : Bytes) : Res T :=
  match t.data with
  | none => .ub
  | some c =>
    (Mem.store c t.dataSize bs).bind fun c' =>
      .ok { t with data := some c', dataSize := w64(t.dataSize + bs.length) }

/-- The capacity after the growth step: `allocatedSize += allocation_size` (0x600000), and
`newSize` if that is still too small. -/
def capacity (alloc newSize : Nat) : Nat :=
  if newSize > w64(alloc + 6291456) then newSize else w64(alloc + 6291456)

/-- `addData`: MediaDataAtom.c 142-187, for a handle holding `bs`. -/
def addData (junk : Nat → UInt8) (t : T) (bs : Bytes) : Res T :=
  if bs.length = 0 then .ok t
  else if w64(t.dataSize + bs.length) > t.alloc then
    put { t with data := some (grow junk t.data (capacity t.alloc (w64(t.dataSize + bs.length))))
                 alloc := capacity t.alloc (w64(t.dataSize + bs.length)) } bs
  else put t bs

/-- `addMdat`: MediaDataAtom.c 189-224. `(u32)newSize` is the identity here because of the first
check. Reading the other box's data: undefined when it is `NULL` or too short. -/
def addMdat (junk : Nat → UInt8) (t other : T) : Res T :=
  if w64(other.dataSize + t.dataSize) >>> 32 ≠ 0 then .err .notImplemented
  else if other.dataSize = 0 then .ok t
  else
    match other.data with
    | none => .ub
    | some src =>
      if src.length < other.dataSize then .ub
      else if w64(t.dataSize + other.dataSize) > t.alloc then
        put { t with
              data := some (grow junk t.data (capacity t.alloc (w64(t.dataSize + other.dataSize))))
              alloc := capacity t.alloc (w64(t.dataSize + other.dataSize)) }
          (src.take other.dataSize)
      else put t (src.take other.dataSize)

/-- `copyData` of the in-memory data handler: MdatDataHandler.c 47-72. The sum `offset + bytes` is
a `u64` one. `memcpy` outside the allocated cells is undefined. -/
def copyData (t : T) (offset n : Nat) : Res Bytes :=
  match t.data with
  | none => .err .badParam
  | some c =>
    if t.dataSize < w64(offset + n) then .err .badParam
    else if offset >>> 32 ≠ 0 then .err .notImplemented
    else if offset + n ≤ c.length then .ok ((c.drop offset).take n)
    else .ub

/-- `calculateSize`: MediaDataAtom.c 113-140: the fields `size` (`u32`) and `size64` (`u64`; not
assigned in the small case: the value kept from before is `old64`). -/
def calcSize (dataSize old64 : Nat) : Nat × Nat :=
  if dataSize = 0 then (0, old64)
  else if dataSize >>> 32 ≠ 0 then (1, w64(dataSize + 8 + 8))
  else (w32(8 + dataSize), old64)

/-- `MP4SerializeCommonBaseAtomFields`: MP4Atoms.c 945-970, both forms. While the large form is
written the `size` field is 16. `assert(self->size)` fails for 0. -/
def serBaseLarge (size size64 : Nat) (type : Nat) : Res Bytes :=
  if size = 0 then .ub
  else if size = 1 then runW 16 (put32 1 ;; put32 type ;; put64 size64)
  else runW size (put32 size ;; put32 type)

/-- `writeToFile`: MediaDataAtom.c 75-111 (without `FORCE_OFFSET`, which no build file defines):
the bytes appended to the file. Nothing is written when the computed size is 0. `fwrite` of
`dataSize` bytes from `NULL` or beyond the cells is undefined. -/
def writeToFile (t : T) (old64 : Nat) : Res Bytes :=
  if (calcSize t.dataSize old64).1 > 0 then
    (serBaseLarge (calcSize t.dataSize old64).1 (calcSize t.dataSize old64).2 typeMdat).bind fun hd =>
      match t.data with
      | none => .ub
      | some c => if c.length < t.dataSize then .ub else .ok (hd ++ c.take t.dataSize)
  else .ok []

/-- `serialize`: MediaDataAtom.c 51-73, into a buffer of `size` bytes. -/
def serialize (t : T) (old64 : Nat) : Res Bytes :=
  if (calcSize t.dataSize old64).1 = 1 then .err .notImplemented
  else if (calcSize t.dataSize old64).1 > 0 then
    match t.data with
    | none => .ub
    | some c =>
      if c.length < t.dataSize then .ub else
      runW (calcSize t.dataSize old64).1
        (serBase (calcSize t.dataSize old64).1 typeMdat ;; putBytes (c.take t.dataSize) ;; W.assertFull)
  else .ok []

/-- `skipData` of the file stream: MP4FileMappingInputStream.c 138-159. The caller does not add
the length to `bytesRead`. -/
def skipData (n : Nat) : P Unit := fun s =>
  if s.rest.length < n then .err .ioErr else .ok ((), ⟨s.rest.drop n, s.read⟩)

/-- The number of bytes after the header: MediaDataAtom.c 236-238 (`u64` and `u32` subtractions). -/
def bytesToRead (h : Hdr) (read : Nat) : Nat :=
  if h.size = 1 then w64(h.size64 + (18446744073709551616 - read))
  else w32(h.size + (4294967296 - read))

/-- `createFromInputStream`: MediaDataAtom.c 226-280. `streamOffset` is the file offset of the
box. Data of 2^31 bytes or more is skipped, not kept. -/
def parseBody (streamOffset : Nat) (h : Hdr) : P T := fun s =>
  if bytesToRead h s.read >>> 31 > 0 then
    (do skipData (bytesToRead h s.read); pure ⟨none, 0, 0, streamOffset + s.read⟩ : P T) s
  else if bytesToRead h s.read > 0 then
    (do
      let bs ← getBytes (bytesToRead h s.read)
      pure ⟨some bs, bytesToRead h s.read, bytesToRead h s.read, streamOffset + s.read⟩ : P T) s
  else .ok (create, s)

end Verif.Mdat
