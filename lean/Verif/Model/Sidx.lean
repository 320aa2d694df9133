import Verif.Core.Box

/-!
# Segment index
SegmentIndexAtom.c
-/

namespace Verif.Sidx

/-- `SIDXReference`: MP4Atoms.h 2079-2088. -/
structure Ref where
  type : Nat
  size : Nat
  duration : Nat
  starts : Nat
  sap : Nat
  delta : Nat
  deriving DecidableEq, Repr

/-- `MP4SegmentIndexAtom`: MP4Atoms.h 2123-2142; `count` is the `u16` member `referenceCount`. -/
structure Box where
  version : Nat
  flags : Nat
  id : Nat
  timescale : Nat
  earliest : Nat
  first : Nat
  reserved : Nat
  count : Nat
  refs : List Ref
  deriving DecidableEq, Repr

def typeSidx : Nat := 0x73696478

/-- `addReference`: lines 43-88. -/
def addReference (b : Box) (r : Ref) : Box := { b with count := w16(b.count + 1), refs := b.refs ++ [r] }

/-- `calculateSize`: lines 170-192. -/
def size (b : Box) : Nat := w32(12 + 20 + 4 * b.count + 12 * b.count)

/-- Lines 154-161; the shifts are `int` shifts of `u8` values, converted to `u32`. -/
def putRef (r : Ref) : W :=
  put32 (w32(r.type <<< 31) ||| r.size) ;; put32 r.duration ;;
  put32 ((w32(r.starts <<< 31) ||| w32(r.sap <<< 28)) ||| r.delta)

/-- The loop: an entry that is not in the list is an error of `MP4GetListEntry`. -/
def putRefs : Nat → List Ref → W
  | 0, _ => W.skip
  | _ + 1, [] => W.fail .badParam
  | n + 1, r :: rs => putRef r ;; putRefs n rs

/-- `serialize`: lines 126-168. There is no assertion on the size. -/
def serialize (b : Box) : W :=
  serFull (size b) typeSidx b.version b.flags ;;
  put32 b.id ;; put32 b.timescale ;; put32 b.earliest ;; put32 b.first ;; put16 b.reserved ;; put16 b.count ;;
  putRefs b.count b.refs

/-- Lines 225-232. -/
def getRef : P Ref := do
  let x ← get32
  let d ← get32
  let y ← get32
  pure ⟨(x >>> 31) &&& 1, x &&& 0x7FFF, d, (y >>> 31) &&& 1, (y >>> 28) &&& 7, y &&& 0x0FFFFFFF⟩

/-- The loop of the parser, lines 214-237: `i` is compared with the count that `addReference`
increments. The first argument bounds the rounds: the count returns to 0 before it runs out. -/
def loop : Nat → Nat → Box → P Box
  | 0, _, _ => P.bad
  | fuel + 1, i, b =>
    if i < b.count then do
      let r ← getRef
      loop fuel (i + 1) (addReference b r)
    else pure b

/-- `createFromInputStream`: lines 194-245. An error from the fields of a full box is overwritten, but
the next read then fails as well. -/
def parse (h : Hdr) : P Box := do
  let vf ← getVersionFlags
  let id ← get32
  let ts ← get32
  let e ← get32
  let f ← get32
  let r ← get16
  let n ← get16
  let b ← loop 65537 0 ⟨vf.1, vf.2, id, ts, e, f, r, n, []⟩
  let br ← P.bytesRead
  if br = h.size then pure b else P.bad

end Verif.Sidx
