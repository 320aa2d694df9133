import Verif.Core.Basic

/-!
# Handles: MP4Handle.c

A handle owns one allocated block. Bytes obtained from `malloc`/`realloc` are indeterminate
(`none`). Every allocation is given an outcome by the caller of the model (`mem`), so allocation
failure inside `realloc`/`malloc` of the data block is covered; failure to allocate the small
handle record itself is not modelled (`MP4NewHandle` then returns no error and a NULL handle).
Writing or forming an address outside the block is undefined behaviour.
-/

namespace Verif.Hdl

/-- One byte of memory; `none` is indeterminate. -/
abbrev Cell := Option UInt8

/-- `handleStruct`: MP4Handle.c 30-40. `null` says that `data == NULL`. -/
structure Handle where
  block : List Cell
  null : Bool
  size : Nat
  alloc : Nat
  offset : Nat
  deriving DecidableEq, Repr

/-- `realloc` (or `malloc` for an empty block) to `n` bytes. -/
def resize (block : List Cell) (n : Nat) : List Cell :=
  block.take n ++ List.replicate (n - block.length) none

/-- `memcpy` into a block at `pos`. -/
def blit (block : List Cell) (pos : Nat) (src : List Cell) : Res (List Cell) :=
  if pos + src.length ≤ block.length then
    .ok (block.take pos ++ src ++ block.drop (pos + src.length))
  else .ub

/-- `MP4NewHandle`: MP4Handle.c 43-78 (`calloc` zeroes the data). -/
def newHandle (n : Nat) (mem : Bool) : Res Handle :=
  if n ≠ 0 ∧ mem = false then .err .noMemory
  else .ok { block := List.replicate n (some 0), null := n = 0, size := n, alloc := n, offset := 0 }

/-- `MP4SetHandleSize`: MP4Handle.c 97-128. -/
def setSize (h : Handle) (req : Nat) (mem : Bool) : Res Handle :=
  if h.alloc ≥ req then .ok { h with size := req }
  else if mem then
    .ok { h with
      block := if h.null then resize [] (w32(req + h.offset)) else resize h.block (w32(req + h.offset))
      null := false
      size := req
      alloc := req }
  else .err .noMemory

/-- `MP4SetHandleOffset`: MP4Handle.c 130-161. `adjust` is the `s32` difference; it is
represented by its 32-bit pattern `d`, positive when `0 < d < 2^31`. -/
def setOffset (h : Handle) (offset : Nat) (mem : Bool) : Res Handle :=
  let d := w32(offset + 4294967296 - h.offset)
  if d = 0 then .ok h
  else if offset > w32(h.size + h.offset) ∧ h.size ≠ 0 then .err .badParam
  else
    let h1 := if h.size = 0 ∧ d < 2147483648 then setSize h d mem else .ok h
    match h1 with
    | .ok h1 =>
      if offset ≤ h1.block.length then
        .ok { h1 with
          offset := offset
          size := w32(h1.size + 4294967296 - d)
          alloc := w32(h1.alloc + 4294967296 - d) }
      else .ub
    | .err e => .err e
    | .ub => .ub

/-- The source bytes of a `memcpy` out of a handle. -/
def readView (h : Handle) (n : Nat) : Res (List Cell) :=
  if h.offset + n ≤ h.block.length then .ok ((h.block.drop h.offset).take n) else .ub

/-- All handles of the program. -/
abbrev Store := List Handle

/-- `MP4HandleCat`: MP4Handle.c 177-222. The record of the source is read again by the final
`memcpy`, after the destination's record was updated (they may be the same record). -/
def cat (σ : Store) (d s : Nat) (mem : Bool) : Res Store :=
  match σ[d]?, σ[s]? with
  | some dh, some sh =>
    let req := w32(dh.size + sh.size)
    let off := dh.size
    let p : Handle × Option Err :=
      if dh.alloc ≥ req then ({ dh with size := req }, none)
      else if mem then
        ({ dh with
          block := if dh.null then resize [] (w32(sh.size + dh.offset))
            else resize dh.block (w32(req + dh.offset))
          null := false
          size := req
          alloc := req }, none)
      else (dh, some .noMemory)
    let σ1 := σ.set d p.1
    match σ1[s]? with
    | some sh1 =>
      match readView sh1 sh1.size with
      | .ok src =>
        match blit p.1.block (p.1.offset + off) src with
        | .ok b =>
          match p.2 with
          | none => .ok (σ1.set d { p.1 with block := b })
          | some e => .err e
        | _ => .ub
      | _ => .ub
    | none => .ub
  | _, _ => .err .badParam

/-- Calls on handles; `mem` is the outcome of the allocation the call may make. -/
inductive Op
  | new (n : Nat) (mem : Bool)
  | setSize (h n : Nat) (mem : Bool)
  | setOffset (h o : Nat) (mem : Bool)
  | cat (d s : Nat) (mem : Bool)
  | getSize (h : Nat)

/-- Apply a call to one handle of the store; an unknown handle is refused with `MP4BadParamErr`
(NULL or bad signature: MP4Handle.c 87, 102, 136). -/
def onHandle (σ : Store) (i : Nat) (f : Handle → Res Handle) : Res (Option Nat × Store) :=
  match σ[i]? with
  | none => .err .badParam
  | some h => match f h with
    | .ok h' => .ok (none, σ.set i h')
    | .err e => .err e
    | .ub => .ub

/-- One call: the answer (a size, for `MP4GetHandleSize`, MP4Handle.c 80-95) and the new store. -/
def step (σ : Store) : Op → Res (Option Nat × Store)
  | .new n mem => (newHandle n mem).bind fun h => .ok (none, σ ++ [h])
  | .setSize i n mem => onHandle σ i fun h => setSize h n mem
  | .setOffset i o mem => onHandle σ i fun h => setOffset h o mem
  | .cat d s mem => (cat σ d s mem).bind fun σ' => .ok (none, σ')
  | .getSize i => match σ[i]? with
    | none => .err .badParam
    | some h => .ok (some h.size, σ)

/-- Answers of a history of calls together with the store after each; an error leaves the store
unchanged, undefined behaviour ends the run. -/
def run (σ : Store) : List Op → List (Res (Option Nat) × Store)
  | [] => []
  | op :: ops => match step σ op with
    | .ok (o, σ') => (.ok o, σ') :: run σ' ops
    | .err e => (.err e, σ) :: run σ ops
    | .ub => [(.ub, σ)]

end Verif.Hdl
