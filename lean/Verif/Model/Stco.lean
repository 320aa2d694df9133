import Verif.Core.Box
import Verif.Core.Mem
import Verif.Spec.Chunks

/-!
# Chunk offset table: ChunkOffsetAtom.c, and the relocation of media data
-/

namespace Verif.Stco

/-- `MP4ChunkOffsetAtom`: MP4Atoms.h 1240-1247. `cells` is the array `offsets` (empty for NULL);
`allocatedSize` is a number of bytes. -/
structure Stco where
  count : Nat
  alloc : Nat
  cells : List Nat
  deriving DecidableEq, Repr

/-- `MP4CreateChunkOffsetAtom`: ChunkOffsetAtom.c 218-245. -/
def create : Stco := ⟨0, 0, []⟩

/-- Lines 90-99 of `addOffset`: `allocatedSize` and the array with room for `count` offsets. The
product with `sizeof` is a 64-bit one. The first allocation is zeroed by the code; here its content
is arbitrary like that of the later ones. -/
def makeRoom (junk : Nat → Nat) (t : Stco) (count : Nat) : Nat × List Nat :=
  if count * 8 > t.alloc then
    (w32(t.alloc + 8192), Mem.realloc junk t.cells (w32(t.alloc + 8192) / 8))
  else (t.alloc, t.cells)

/-- `addOffset`: ChunkOffsetAtom.c 81-104. -/
def addOffset (junk : Nat → Nat) (t : Stco) (offset : Nat) : Res Stco :=
  (Mem.set (makeRoom junk t w32(t.count + 1)).2 (pred32 w32(t.count + 1)) offset).bind fun cells =>
    .ok ⟨w32(t.count + 1), (makeRoom junk t w32(t.count + 1)).1, cells⟩

/-- `getChunkOffset`: ChunkOffsetAtom.c 135-148. -/
def getChunkOffset (t : Stco) (chunk : Nat) : Res Nat :=
  if chunk = 0 ∨ chunk > t.count then .err .badParam else Mem.get t.cells (chunk - 1)

/-- `'stco'`, `'co64'` -/
def typeStco : Nat := 0x7374636F
def typeCo64 : Nat := 0x636F3634

/-- The first `count` cells, as read by the loops of `calculateSize` and `serialize`. -/
def used (t : Stco) : Res (List Nat) :=
  if t.count ≤ t.cells.length then .ok (t.cells.take t.count) else .ub

/-- The box type chosen in `calculateSize`: ChunkOffsetAtom.c 113-121. -/
def boxType (offs : List Nat) : Nat :=
  if offs.any fun o => o >>> 32 ≠ 0 then typeCo64 else typeStco

/-- `calculateSize`: ChunkOffsetAtom.c 106-133. -/
def calcSize (offs : List Nat) : Nat :=
  if boxType offs = typeStco then w32(12 + w32(4 + w32(4 * offs.length)))
  else w32(12 + w32(4 + w32(8 * offs.length)))

/-- `serialize`: ChunkOffsetAtom.c 45-77, for a box whose `calculateSize` chose `type` and
`size`; `PUT32_V` of an offset keeps its low 32 bits. -/
def serializeAs (type size version flags : Nat) (offs : List Nat) : W :=
  serFull size type version flags ;; put32 offs.length ;;
  (if type = typeStco then W.each (fun o => put32 w32(o)) offs
   else if type = typeCo64 then W.each put64 offs
   else W.skip) ;; W.assertFull

/-- `serialize` right after `calculateSize`. -/
def serialize (version flags : Nat) (offs : List Nat) : W :=
  serializeAs (boxType offs) (calcSize offs) version flags offs

/-- `createFromInputStream`: ChunkOffsetAtom.c 172-216. -/
def parseBody (h : Hdr) : P ((Nat × Nat) × Stco) := do
  let vf ← getVersionFlags
  let n ← get32
  if n = 0 then pure (vf, ⟨0, 0, []⟩)
  else if h.type = typeStco then do
    let offs ← P.repeat n get32
    pure (vf, ⟨n, w32(n * 8), offs⟩)
  else if h.type = typeCo64 then do
    let offs ← P.repeat n get64
    pure (vf, ⟨n, w32(n * 8), offs⟩)
  else P.fail .internalErr

/-! ## Relocation -/

/-- `u64 += s32` -/
def add64 (a : Nat) (delta : Int) : Nat := (((a : Int) + delta) % 18446744073709551616).toNat

/-- The loop of `mdatMoved`: `k` cells from `j` on. -/
def moveLoop (base stop : Nat) (delta : Int) : Nat → Nat → List Nat → Res (List Nat)
  | 0, _, cells => .ok cells
  | k + 1, j, cells => match cells[j]? with
    | some o => moveLoop base stop delta k (j + 1)
        (if o ≥ base ∧ o < stop then cells.set j (add64 o delta) else cells)
    | none => .ub

/-- `mdatMoved`: ChunkOffsetAtom.c 150-170. -/
def mdatMoved (t : Stco) (first last base stop : Nat) (delta : Int) : Res Stco :=
  if first = 0 ∨ first > t.count ∨ last = 0 ∨ last > t.count then .err .badParam
  else match moveLoop base stop delta (last + 1 - first) (first - 1) t.cells with
    | .ok cells => .ok { t with cells := cells }
    | .err e => .err e
    | .ub => .ub

/-- Whether a sample description's data is in the same file: `getEntry` of
SampleDescriptionAtom.c 108-122 and DataReferenceAtom.c 54-70. `stsd` lists the data reference
index of each sample description, `dref` the flags of each data entry. -/
def selfContained (stsd dref : List Nat) (desc : Nat) : Res Bool :=
  if desc = 0 ∨ desc > stsd.length then .err .badParam
  else match stsd[desc - 1]? with
    | some r =>
      if r < 1 ∨ r > dref.length then .err .badParam
      else match dref[r - 1]? with
        | some f => .ok (f &&& 1 ≠ 0)
        | none => .ub
    | none => .ub

/-- The loop of `mdatMoved`: SampleToChunkAtom.c 134-176. -/
def stscLoop (stsd dref : List Nat) (base stop : Nat) (delta : Int) (chunkCount : Nat) :
    List StscEntry → Nat → Bool → Stco → Res Stco
  | [], _, _, t => .ok t
  | p :: rest, savedDesc, savedSelf, t =>
    match (if p.desc ≠ savedDesc then selfContained stsd dref p.desc else .ok savedSelf) with
    | .ok self =>
      if self then
        let chunks := match rest with
          | [] => w32(chunkCount + 1 + 4294967296 - p.first)
          | q :: _ => w32(q.first + 4294967296 - p.first)
        match mdatMoved t p.first w32(p.first + chunks + 4294967295) base stop delta with
        | .ok t => stscLoop stsd dref base stop delta chunkCount rest p.desc self t
        | .err e => .err e
        | .ub => .ub
      else stscLoop stsd dref base stop delta chunkCount rest p.desc self t
    | .err e => .err e
    | .ub => .ub

/-- `mdatMoved` of the sample-to-chunk table: SampleToChunkAtom.c 111-183. -/
def trackMoved (stsd dref : List Nat) (es : List StscEntry) (t : Stco) (base stop : Nat)
    (delta : Int) : Res Stco :=
  stscLoop stsd dref base stop delta t.count es 0 false t

end Verif.Stco
