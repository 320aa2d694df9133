import Verif.Core.Box

/-!
# Item references
SingleItemTypeReferenceAtom.c, ItemReferenceAtom.c and the functions of ISOMeta.c on references.

Items are given by their ID (`item_ID` of the location entry). `to_item_IDs` is the list of its
`reference_count` elements; the block is that long except while a box is read.
-/

namespace Verif.Iref

/-- The members of `ISOSingleItemTypeReferenceAtom` (MP4Atoms.h 1989-1996). -/
structure Ref where
  type : Nat
  src : Nat
  ids : List Nat
  large : Bool
  deriving DecidableEq, Repr

def typeIref : Nat := 0x69726566
def typeFree : Nat := 0x66726565
def typeSkip : Nat := 0x736b6970

/-! ## Writing -/

/-- `calculateSize`: SingleItemTypeReferenceAtom.c 68-90. -/
def refSize (r : Ref) : Nat :=
  w32(8 + (if r.large then 6 + 4 * r.ids.length else 4 + 2 * r.ids.length))

/-- `serialize`: SingleItemTypeReferenceAtom.c 28-66, with the assertion on the type. -/
def putRef (size : Nat) (r : Ref) : W :=
  (if r.type = 0 then W.bad else W.skip) ;;
  serBase size r.type ;;
  (if r.large then put32 r.src else put16 r.src) ;;
  put16 r.ids.length ;;
  W.each (fun i => if r.large then put32 i else put16 i) r.ids ;;
  W.assertFull

/-- `calculateSize` and `serialize`: ItemReferenceAtom.c 36-66. -/
def write (version flags : Nat) (l : List Ref) : Res Bytes :=
  let size := w32(12 + (l.map refSize).sum)
  runW size (serFull size typeIref version flags ;;
    W.each (fun r => nested (refSize r) (putRef (refSize r) r)) l ;; W.assertFull)

/-! ## Reading

`createFromInputStream` of the outer box goes on after an error in an inner one: the inner box is kept as
far as it was read. -/

/-- `GET..`: on an error the function stops. -/
def orStop {β : Type} (p : P Nat) (s : PS) (stop : Res β) (k : Nat → PS → Res β) : Res β :=
  match p s with
  | .ok (v, s') => k v s'
  | .err _ => stop
  | .ub => .ub

/-- The loop over the references: SingleItemTypeReferenceAtom.c 129-139. `cap` is the size of the block in
bytes, `i` the index, `ids` the elements so far. A missing element stops the loop; the block was cleared. -/
def idLoop (large : Bool) (cap count : Nat) : Nat → List Nat → PS → Res (Option Unit × List Nat × PS)
  | 0, ids, s => .ok (some (), ids, s)
  | n + 1, ids, s => orStop (if large then get32 else get16) s (.ok (none, ids ++ List.replicate (n + 1) 0, s)) fun v s =>
    if 4 * (ids.length + 1) ≤ cap then idLoop large cap count n (ids ++ [v]) s else .ub

/-- `createFromInputStream`: SingleItemTypeReferenceAtom.c 92-145, from a box of which only `type` and
`size` are set, by the header of the outer box. The second part is `size`. `calloc(count, sizeof(u16))`
makes a block of `2 * count` bytes for elements of four bytes. -/
def readRef (large : Bool) (proto : Hdr) (rest : Bytes) : Res (Ref × Nat × Bytes) :=
  orStop get32 ⟨rest, 0⟩ (.ok (⟨proto.type, 0, [], large⟩, proto.size, rest)) fun size s =>
  orStop get32 s (.ok (⟨proto.type, 0, [], large⟩, size, s.rest)) fun type s =>
  orStop (if large then get32 else get16) s (.ok (⟨type, 0, [], large⟩, size, s.rest)) fun src s =>
  orStop get16 s (.ok (⟨type, src, [], large⟩, size, s.rest)) fun count s =>
  (idLoop large (if large then 4 * count else 2 * count) count count [] s).bind fun (all, ids, s) =>
    match all with
    | none => .ok (⟨type, src, ids, large⟩, size, s.rest)
    | some _ => if s.read = size then .ok (⟨type, src, ids, large⟩, size, s.rest) else .ub

/-- The loop of `createFromInputStream`: ItemReferenceAtom.c 80-99. Every round reads at least four bytes,
except with fewer than four bytes left; then `bytesRead` grows by the size of the outer box. (The loop
would go on only for a size of 2^31 or more; then the model gives up.) -/
def loop (large : Bool) (proto : Hdr) : Nat → List Ref → P (List Ref)
  | 0, _ => P.bad
  | fuel + 1, l => fun s =>
    if s.read < proto.size then
      (readRef large proto s.rest).bind fun (r, size, rest) =>
        loop large proto fuel (if r.type = typeFree ∨ r.type = typeSkip then l else l ++ [r]) ⟨rest, w32(s.read + size)⟩
    else .ok (l, s)

/-- `createFromInputStream`: ItemReferenceAtom.c 68-102: version, flags and references. -/
def parse (h : Hdr) : P (Nat × Nat × List Ref) := do
  let vf ← getVersionFlags
  if vf.1 > 1 then P.fail .notImplemented else
  let n ← P.available
  let l ← loop (vf.1 == 1) h (n + 2) []
  pure (vf.1, vf.2, l)

/-! ## The functions on items

The state is `version` and list of `iref`, `none` without the box. -/

abbrev S := Option (Nat × List Ref)

def isRef (item type : Nat) (r : Ref) : Bool := r.src == item && r.type == type

/-- `ISOGetItemReferences`: ISOMeta.c 688-725. -/
def getReferences (s : S) (item type : Nat) : Res (List Nat) :=
  match s with
  | none => .err .badParam
  | some (_, l) => match l.find? (isRef item type) with
    | none => .ok []
    | some r => .ok r.ids

/-- `ISOGetItemReference`: ISOMeta.c 727-759, up to the ID that is then looked up. Index 0 reads before
the block. -/
def getReference (s : S) (item type index : Nat) : Res Nat :=
  (getReferences s item type).bind fun ids =>
    if ids.length < index then .err .badParam
    else if index = 0 then .ub
    else match ids[index - 1]? with
      | some i => .ok w16(i)
      | none => .ub

/-- The box that is there or made: ISOMeta.c 779-787. -/
def ensure (s : S) : Nat × List Ref := s.getD (0, [])

/-- `ISOAddItemReferences`: ISOMeta.c 827-868, with a handle of `ids.length` elements. -/
def addReferences (s : S) (item type : Nat) (ids : List Nat) : S :=
  let (v, l) := ensure s
  some (v, l ++ [⟨type, item, ids, v % 256 == 1⟩])

/-- Change the first box of the pair. -/
def changeFirst (item type : Nat) (f : Ref → Ref) : List Ref → List Ref
  | [] => []
  | r :: l => if isRef item type r then f r :: l else r :: changeFirst item type f l

/-- `ISOAddItemReference`: ISOMeta.c 761-825: the new state and the index. After 65535 references the count
is 0 and the store is before the block. -/
def addReference (s : S) (item type to : Nat) : Res (S × Nat) :=
  let (v, l) := ensure s
  (getReferences (some (v, l)) item type).bind fun ids =>
    if ids.length = 0 then .ok (addReferences (some (v, l)) item type [to], 1)
    else if w16(ids.length + 1) = 0 then .ub
    else .ok (some (v, changeFirst item type (fun r => { r with ids := r.ids ++ [to] }) l), ids.length + 1)

end Verif.Iref
