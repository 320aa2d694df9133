import Verif.Model.Handler

/-!
# Input streams

MP4FileMappingInputStream.c and MP4MemoryInputStream.c: the objects behind `inputStream->read8`,
`read16`, `read32`, `readData`, `skipData`, `rewindData` and `getStreamOffset` that every
`createFromInputStream` function reads from. The other model files describe reading on the list of
the bytes not read yet (`PS` of Core/Codec); here are the counters, pointers and blocks of the C
objects themselves.

Also the file mapping object of macOS (macosx/SimpleFileMappingObject.c), which maps a window of the
file at a time and implements `copyData`.

Not modelled: `msg`, `debugging`, `indent`, `destroy`, `getFileMappingObject`; failing allocations.
Of the system calls: `mmap` fails for an empty range and for an offset which is negative as `off_t`,
and succeeds otherwise; `munmap` fails for `MAP_FAILED` (not a page address) and succeeds on a
mapping.
-/

namespace Verif.Stream

/-- What the code of a stream offers; the second component is the stream afterwards. -/
structure Impl (S : Type) where
  available : S → Nat
  data : S → Nat → Res Bytes × S
  skip : S → Nat → Res Unit × S
  rewind : S → Nat → Res Unit × S
  offset : S → Nat

/-- The value in a block of one byte. -/
def byte : Bytes → Res Nat
  | [b] => .ok b.toNat
  | _ => .ub

/-- `read8`: MP4FileMappingInputStream.c 63-83, MP4MemoryInputStream.c 72-91. -/
def read8 {S : Type} (I : Impl S) (s : S) : Res Nat × S :=
  let r := I.data s 1
  (r.1.bind byte, r.2)

/-- `read16`: MP4FileMappingInputStream.c 85-111, MP4MemoryInputStream.c 93-117. -/
def read16 {S : Type} (I : Impl S) (s : S) : Res Nat × S :=
  if I.available s < 2 then (.err .ioErr, s)
  else
    let a := read8 I s
    match a.1 with
    | .ok x =>
      let b := read8 I a.2
      (b.1.bind fun y => .ok (x <<< 8 ||| y), b.2)
    | .err e => (.err e, a.2)
    | .ub => (.ub, a.2)

/-- `read32`: MP4FileMappingInputStream.c 113-136, MP4MemoryInputStream.c 119-141. -/
def read32 {S : Type} (I : Impl S) (s : S) : Res Nat × S :=
  if I.available s < 4 then (.err .ioErr, s)
  else
    let a := read16 I s
    match a.1 with
    | .ok x =>
      let b := read16 I a.2
      (b.1.bind fun y => .ok (w32(x <<< 16) ||| y), b.2)
    | .err e => (.err e, a.2)
    | .ub => (.ub, a.2)

/-! ## The stream in memory -/

/-- `MP4MemoryInputStreamRecord`: MP4InputStream.h 53-59; `base` and `ptr` are addresses, `block` is
what lies at `base`. -/
structure Mem where
  available : Nat
  base : Nat
  ptr : Nat
  block : Bytes
  deriving DecidableEq, Repr

/-- `MP4CreateMemoryInputStream`: MP4MemoryInputStream.c 228-257. -/
def Mem.create (base : Nat) (block : Bytes) (size : Nat) : Mem := ⟨size, base, base, block⟩

/-- `memcpy` from `ptr`. -/
def Mem.fetch (s : Mem) (n : Nat) : Res Bytes :=
  if s.base ≤ s.ptr ∧ s.ptr + n ≤ s.base + s.block.length then
    .ok ((s.block.drop (s.ptr - s.base)).take n)
  else .ub

/-- `readData`: MP4MemoryInputStream.c 194-220. -/
def Mem.data (s : Mem) (bytes : Nat) : Res Bytes × Mem :=
  if bytes >>> 32 ≠ 0 then (.err .notImplemented, s)
  else if s.available < bytes then (.err .ioErr, s)
  else (s.fetch w32(bytes), { s with ptr := s.ptr + w32(bytes), available := s.available - w32(bytes) })

/-- `skipData`: MP4MemoryInputStream.c 143-169. -/
def Mem.skip (s : Mem) (bytes : Nat) : Res Unit × Mem :=
  if bytes >>> 32 ≠ 0 then (.err .notImplemented, s)
  else if s.available < bytes then (.err .ioErr, s)
  else (.ok (), { s with ptr := s.ptr + w32(bytes), available := s.available - w32(bytes) })

/-- `rewindData`: MP4MemoryInputStream.c 171-192. It works on the record of the other stream, whose
`current_offset` lies where `ptr` lies here: the amount is compared with an address. -/
def Mem.rewind (s : Mem) (bytes : Nat) : Res Unit × Mem :=
  if s.ptr < bytes then (.err .badParam, s)
  else (.ok (), { s with available := w64(s.available + bytes), ptr := s.ptr - bytes })

/-- `getStreamOffset`: MP4MemoryInputStream.c 222-226. -/
def Mem.offset (s : Mem) : Nat := w64(s.ptr + 2 ^ 64 - s.base)

def Mem.impl : Impl Mem := ⟨Mem.available, Mem.data, Mem.skip, Mem.rewind, Mem.offset⟩

/-! ## The stream over a file -/

/-- A mapping object with its way of copying: `copyData`, or `memcpy` from `data`. -/
structure Copier (M : Type) where
  copy : M → Nat → Nat → Res Bytes × M

/-- Without `copyData`: MP4FileMappingInputStream.c 206-209, `memcpy` from `base`, the `data` of the
mapping object. -/
def plain : Copier Handler.Mapping where
  copy m offset n :=
    (match m.data with
     | none => .ub
     | some d => if offset + n ≤ d.length then .ok ((d.drop offset).take n) else .ub, m)

/-- `MP4FileMappingInputStreamRecord`: MP4InputStream.h 61-67. -/
structure File (M : Type) where
  available : Nat
  current : Nat
  map : M
  deriving DecidableEq, Repr

/-- `MP4CreateFileMappingInputStream`: MP4FileMappingInputStream.c 231-259. -/
def File.create {M : Type} (size64 : Nat) (map : M) : File M := ⟨size64, 0, map⟩

/-- `readData`: MP4FileMappingInputStream.c 184-223; the counters move also when `copyData` fails. -/
def File.data {M : Type} (C : Copier M) (s : File M) (bytes : Nat) : Res Bytes × File M :=
  if bytes >>> 32 ≠ 0 then (.err .notImplemented, s)
  else if s.available < w32(bytes) then (.err .ioErr, s)
  else
    let r := C.copy s.map s.current w32(bytes)
    (r.1, { available := s.available - w32(bytes), current := w64(s.current + w32(bytes)), map := r.2 })

/-- `skipData`: MP4FileMappingInputStream.c 138-159. -/
def File.skip {M : Type} (s : File M) (bytes : Nat) : Res Unit × File M :=
  if s.available < bytes then (.err .ioErr, s)
  else (.ok (), { s with available := s.available - bytes, current := w64(s.current + bytes) })

/-- `rewindData`: MP4FileMappingInputStream.c 161-182. -/
def File.rewind {M : Type} (s : File M) (bytes : Nat) : Res Unit × File M :=
  if s.current < bytes then (.err .badParam, s)
  else (.ok (), { s with available := w64(s.available + bytes), current := s.current - bytes })

/-- `getStreamOffset`: MP4FileMappingInputStream.c 225-229. -/
def File.offset {M : Type} (s : File M) : Nat := s.current

def File.impl {M : Type} (C : Copier M) : Impl (File M) :=
  ⟨File.available, File.data C, File.skip, File.rewind, File.offset⟩

/-! ## A window on a file -/

/-- `SimpleFileMappingObjectRecord` of macosx/SimpleFileMappingObject.h 31-40, with the file behind
`fd`; `mapped` is false when `data` is `MAP_FAILED`. `size64` is the length of the file. -/
structure Win where
  file : Bytes
  window : Nat
  size : Nat
  mapped : Bool
  deriving DecidableEq, Repr

/-- `WINDOW_RESIDUE`: macosx/SimpleFileMappingObject.c 38. -/
def residue : Nat := 0x02000000

/-- `offset & WINDOW_BITS`: macosx/SimpleFileMappingObject.c 39, 177. -/
def windowOf (offset : Nat) : Nat := offset &&& 0xFFFFFFFFFF000000

/-- Whether `mmap` gives a mapping. -/
def mmap (size offset : Nat) : Bool := size != 0 && decide (offset < 2 ^ 63)

/-- How much is mapped from a place with `left` bytes behind it: macosx/SimpleFileMappingObject.c
82-84, 186-188. -/
def span (left : Nat) : Nat := if left > residue then residue else left

/-- `doOpen` of a file that is there: macosx/SimpleFileMappingObject.c 61-115. -/
def Win.open (file : Bytes) : Res Win :=
  let n := span file.length
  if mmap n 0 then .ok ⟨file, 0, n, true⟩ else .err .ioErr

/-- Going to the window of an offset: macosx/SimpleFileMappingObject.c 177-197. -/
def Win.move (w : Win) (offset : Nat) : Res Unit × Win :=
  if w.window = windowOf offset then (.ok (), w)
  else if w.mapped = false then (.err .ioErr, w)
  else
    let n := span w64(w.file.length + 2 ^ 64 - windowOf offset)
    if mmap n (windowOf offset) then (.ok (), { w with window := windowOf offset, size := n })
    else (.err .ioErr, { w with window := windowOf offset, size := n, mapped := false })

/-- `memcpy` from the window. -/
def Win.fetch (w : Win) (offset n : Nat) : Res Bytes :=
  if w.mapped = true ∧ offset + n ≤ w.size ∧ w.window + w.size ≤ w.file.length then
    .ok ((w.file.drop (w.window + offset)).take n)
  else .ub

/-- `copyData`: macosx/SimpleFileMappingObject.c 163-219. The first argument bounds the recursion of
line 206; running out of it stands for recursion without end. -/
def Win.copyN : Nat → Win → Nat → Nat → Res Bytes × Win
  | 0, w, _, _ => (.ub, w)
  | fuel + 1, w, offset, n =>
    if w64(offset + n) > w.file.length then (.err .ioErr, w)
    else
      let m := w.move offset
      match m.1 with
      | .err e => (.err e, m.2)
      | .ub => (.ub, m.2)
      | .ok _ =>
        let o := offset - m.2.window
        if o + n > m.2.size then
          let len := w32(m.2.size + 2 ^ 64 - o)
          match m.2.fetch o len with
          | .ok d =>
            let r := copyN fuel m.2 (m.2.window + m.2.size) w32(n + 2 ^ 32 - len)
            (r.1.bind fun d' => .ok (d ++ d'), r.2)
          | .err e => (.err e, m.2)
          | .ub => (.ub, m.2)
        else (m.2.fetch o n, m.2)

/-- `copyData` with a bound that is always enough where recursion ends. -/
def Win.copy (w : Win) (offset n : Nat) : Res Bytes × Win := w.copyN (n + 1) offset n

def windowed : Copier Win := ⟨Win.copy⟩

/-! ## Programs -/

/-- What a caller may ask of a stream. -/
inductive Op where
  | read8 | read16 | read32
  | data (n : Nat)
  | skip (n : Nat)
  | rewind (n : Nat)
  | offset
  | available
  deriving DecidableEq, Repr

/-- What comes back. -/
inductive Ans where
  | num (v : Nat)
  | bytes (b : Bytes)
  | done
  deriving DecidableEq, Repr

/-- One call. -/
def step {S : Type} (I : Impl S) (s : S) : Op → Res Ans × S
  | .read8 => let r := read8 I s; (r.1.bind fun v => .ok (.num v), r.2)
  | .read16 => let r := read16 I s; (r.1.bind fun v => .ok (.num v), r.2)
  | .read32 => let r := read32 I s; (r.1.bind fun v => .ok (.num v), r.2)
  | .data n => let r := I.data s n; (r.1.bind fun b => .ok (.bytes b), r.2)
  | .skip n => let r := I.skip s n; (r.1.bind fun _ => .ok .done, r.2)
  | .rewind n => let r := I.rewind s n; (r.1.bind fun _ => .ok .done, r.2)
  | .offset => (.ok (.num (I.offset s)), s)
  | .available => (.ok (.num (I.available s)), s)

/-- The answers to a list of calls. -/
def run {S : Type} (I : Impl S) (s : S) : List Op → List (Res Ans)
  | [] => []
  | op :: ops => let r := step I s op; r.1 :: run I r.2 ops

/-- The answers of `copyData` to a list of requests (offset, number of bytes). -/
def reads (w : Win) : List (Nat × Nat) → List (Res Bytes)
  | [] => []
  | (o, n) :: rs => let r := w.copy o n; r.1 :: reads r.2 rs

end Verif.Stream
