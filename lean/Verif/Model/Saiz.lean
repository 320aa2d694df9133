import Verif.Core.Box

/-!
# Sizes of sample auxiliary information
SampleAuxiliaryInformationSizesAtom.c
-/

namespace Verif.Saiz

structure Box where
  version : Nat
  flags : Nat
  auxType : Nat
  auxParam : Nat
  /-- `default_sample_info_size`, a `u8`. -/
  default : Nat
  /-- `sample_count`, a `u32`. -/
  count : Nat
  /-- The allocated bytes of `sample_info_sizes`. -/
  sizes : List Nat
  deriving DecidableEq, Repr

def typeSaiz : Nat := 0x7361697a

/-- `calculateSize`: lines 73-97. -/
def size (b : Box) : Nat :=
  w32(12 + (if b.flags &&& 1 ≠ 0 then 8 else 0) + 5 + (if b.default = 0 then b.count else 0))

/-- The loop that writes the sizes: lines 59-65. Reading past the allocation is undefined. -/
def putSizes : Nat → List Nat → W
  | 0, _ => W.skip
  | _ + 1, [] => W.bad
  | n + 1, s :: ss => put8 s ;; putSizes n ss

/-- `serialize`: lines 38-71. -/
def serialize (b : Box) : W :=
  serFull (size b) typeSaiz b.version b.flags ;;
  (if b.flags &&& 1 ≠ 0 then put32 b.auxType ;; put32 b.auxParam else W.skip) ;;
  put8 b.default ;; put32 b.count ;;
  (if b.default = 0 then putSizes b.count b.sizes else W.skip) ;; W.assertFull

/-- The part that depends on the flags: lines 110-114. -/
def getAux (flags : Nat) : P (Nat × Nat) :=
  if flags &&& 1 ≠ 0 then do
    let t ← get32
    let p ← get32
    pure (t, p)
  else pure (0, 0)

/-- Reading `n` bytes one after the other with `GET8` into a block of `n`. `GET8` stores four bytes (MP4Impl.h 191-194), the byte and
three zeros on a little-endian machine. The zeros are overwritten by the bytes after this one; but the first store less than
four bytes before the end of the block goes past it. `room`: the allocator gave three bytes more than it was asked for, so that this
does no harm. -/
def stores (room : Bool) (n : Nat) : P (List Nat) :=
  if room = true ∨ n = 0 then P.repeat n get8
  else do
    let _ ← P.repeat (max n 3 - 2) get8
    P.bad

/-- Lines 119-126. -/
def getSizes (room : Bool) (default count : Nat) : P (List Nat) :=
  if default = 0 then stores room count else pure []

/-- `createFromInputStream`: lines 99-133, with the assertion at the end. -/
def parse (room : Bool) (h : Hdr) : P Box := do
  let vf ← getVersionFlags
  let aux ← getAux vf.2
  let default ← get8
  let count ← get32
  let sizes ← getSizes room default count
  let br ← P.bytesRead
  if br = h.size then pure ⟨vf.1, vf.2, aux.1, aux.2, default, count, sizes⟩ else P.bad

/-- Cells of a block: stores `vs` from index `i` on in the block grown (by `realloc`) to `n` bytes;
new bytes that are not stored are undefined and left out: `realloc` to the number of bytes that are
then stored is an append. Storing outside is undefined. -/
def grown (block : List Nat) (n i : Nat) (vs : List Nat) : Res (List Nat) :=
  if i ≤ block.length ∧ i + vs.length = n then .ok (block.take i ++ vs) else .ub

/-- `addSizes`: lines 135-173; `given` are the `u32` values in the handle. -/
def addSizes (b : Box) (n : Nat) (given : List Nat) : Res Box :=
  if b.default = 0 then
    if given.length ≠ 1 ∧ given.length ≠ n then .err .badParam
    else
      (grown b.sizes w32(b.count + n) b.count
        (if given.length = 1 then List.replicate n w8(given.headD 0) else given.map fun s => w8(s))).bind fun sizes =>
      .ok { b with count := w32(b.count + n), sizes := sizes }
  else .ok { b with count := w32(b.count + n) }

/-- Lines 195-203 of `mergeSizes`: the default size is written out for each sample. -/
def spread (b : Box) : Box :=
  if b.default ≠ 0 then { b with sizes := List.replicate b.count b.default, default := 0 } else b

/-- The sizes of the other box as they are copied: lines 207-213. -/
def copied (o : Box) : Res (List Nat) :=
  if o.default ≠ 0 then .ok (List.replicate o.count o.default)
  else if o.count ≤ o.sizes.length then .ok (o.sizes.take o.count) else .ub

/-- `mergeSizes`: lines 175-220. -/
def mergeSizes (b o : Box) : Res Box :=
  if b.default ≠ 0 ∧ o.default ≠ 0 ∧ b.default = o.default then .ok { b with count := w32(b.count + o.count) }
  else
    (copied o).bind fun vs =>
    (grown (spread b).sizes w32(b.count + o.count) b.count vs).bind fun sizes =>
    .ok { spread b with count := w32(b.count + o.count), sizes := sizes }

end Verif.Saiz
