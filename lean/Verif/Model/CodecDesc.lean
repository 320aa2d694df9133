import Verif.Model.SampleDesc
import Verif.Model.ParamSet

/-!
# Decoder configurations in whole sample entries

ISOSampleDescriptions.c 988-1392, 2217-2325, with the ends of 1470-1672 and 1872-2213.

Handles and entries are as in Model/SampleDesc, the configurations as in Model/Config and Model/ParamSet. The code calls
`calculateSize` for the whole entry before it writes; here an error of it comes when the box is written, with the same
result. The track is the flag `newTrackFlags & MP4NewTrackIsVisual`; what `setDimensions` (TrackAtom.c 274-287) leaves in a
track header that exists is a result. Pointers are not NULL.
-/

namespace Verif.Cod

open Verif.Ent Verif.Sde Verif.Config

variable {α : Type}

/-- A box of one of the four classes, or of another. -/
inductive Cx (α : Type) where
  | avc (c : Avc)
  | hevc (c : Hevc)
  | vvc (c : Vvc)
  | vvn (version flags lengthSize1 : Nat)
  | other (type : Nat) (x : α)

/-- The member `type`. -/
def Cx.type : Cx α → Nat
  | .avc _ => Avc.type
  | .hevc _ => Hevc.type
  | .vvc _ => Vvc.type
  | .vvn .. => Vvn.type
  | .other t _ => t

def sizeOr : Res Nat → Nat
  | .ok n => n
  | _ => 0

def serOr (r : Res Nat) (w : Nat → W) : W :=
  match r with
  | .ok n => w n
  | .err e => W.fail e
  | .ub => W.bad

/-- `MP4CreateAtom` (MP4Atoms.c 250-640) on the types of these classes, and their functions; `C` has those of the others. -/
def codecs (C : Class α) : Class (Cx α) where
  size
    | .avc c => sizeOr c.calcSize
    | .hevc c => sizeOr c.calcSize
    | .vvc c => sizeOr c.calcSize
    | .vvn .. => 13
    | .other _ x => C.size x
  ser
    | .avc c => serOr c.calcSize fun n => c.serialize n
    | .hevc c => serOr c.calcSize fun n => c.serialize n
    | .vvc c => serOr c.calcSize fun n => c.serialize n
    | .vvn v f l => Vvn.serialize v f l
    | .other _ x => C.ser x
  parse h :=
    if h.type = Avc.type then P.as .avc (Avc.parse h)
    else if h.type = Hevc.type then P.as .hevc (Hevc.parse h)
    else if h.type = Vvc.type then P.as .vvc (Vvc.parse h)
    else if h.type = Vvn.type then P.as (fun p => .vvn p.1 p.2.1 p.2.2) (Vvn.parse h)
    else P.as (.other h.type) (C.parse h)

/-- `dataReferenceIndex`, at the same place in all structures (MP4Atoms.h 828-831). -/
def anyDref {β : Type} : Any β → Nat
  | .plain x => x.dref
  | .visual x => x.dref
  | .audio x => x.dref
  | .encVisual x => x.dref
  | .encAudio x => x.dref
  | .restricted x => x.dref
  | .xmlMeta x => x.dref
  | .textMeta x => x.dref
  | .mebx x => x.dref
  | .generic x => x.dref

/-- `MP4GetListEntryAtom`: MP4Atoms.c 710-738; the place and the box. -/
def first (type : Nat) : List (Cx α) → Option (Nat × Cx α)
  | [] => none
  | b :: l => if b.type = type then some (0, b) else (first type l).map fun p => (p.1 + 1, p.2)

/-- The box of a type, and `MP4BadDataErr` when there is none. A box with the type and of another class cannot be in the
list. -/
def findAvc (l : List (Cx α)) : Res (Nat × Avc) :=
  match first Avc.type l with
  | none => .err .badData
  | some (i, .avc c) => .ok (i, c)
  | some _ => .ub

def findHevc (l : List (Cx α)) : Res Hevc :=
  match first Hevc.type l with
  | none => .err .badData
  | some (_, .hevc c) => .ok c
  | some _ => .ub

def findVvc (l : List (Cx α)) : Res (Nat × Vvc) :=
  match first Vvc.type l with
  | none => .err .badData
  | some (i, .vvc c) => .ok (i, c)
  | some _ => .ub

def findVvn (l : List (Cx α)) : Res Nat :=
  match first Vvn.type l with
  | none => .err .badData
  | some (_, .vvn _ _ n) => .ok n
  | some _ => .ub

/-- The entry, when its type is one of those asked for. -/
def openAs (C : Class α) (d : Dflt) (types : List Nat) (input : Bytes) : Res (Any (Cx α)) := do
  let x ← openEntry (codecs C) d input
  if anyType x ∈ types then .ok x else .err .badParam

def typeAvc1 : Nat := fcc 'a' 'v' 'c' '1'
def typesHevc : List Nat := [fcc 'h' 'v' 'c' '1', fcc 'h' 'v' 'c' '2']
def typesVvc : List Nat := [fcc 'v' 'v' 'c' '1', fcc 'v' 'v' 'i' '1']
def typeResv : Nat := fcc 'r' 'e' 's' 'v'
def typeVvs1 : Nat := fcc 'v' 'v' 's' '1'

/-! ## Asking -/

/-- `ISOGetAVCSampleDescription`: ISOSampleDescriptions.c 1118-1148. -/
def getAvc (C : Class α) (input : Bytes) : Res (Nat × Nat × Nat × Nat × Nat) := do
  let x ← openAs C .visual [typeAvc1] input
  let (_, c) ← findAvc (anyExt x)
  .ok (anyDref x, c.lengthSize, c.sps.length, c.pps.length, c.spsext.length)

/-- `ISOGetVCSampleDescriptionPS`: ISOSampleDescriptions.c 1150-1173. -/
def getAvcSet (C : Class α) (input : Bytes) (kind index : Nat) : Res Bytes := do
  let x ← openAs C .visual [typeAvc1] input
  let (_, c) ← findAvc (anyExt x)
  c.get kind index

/-- `ISOGetHEVCSampleDescriptionPS`: ISOSampleDescriptions.c 1175-1199. -/
def getHevcSet (C : Class α) (input : Bytes) (nalu index : Nat) : Res Bytes := do
  let x ← openAs C .visual typesHevc input
  let c ← findHevc (anyExt x)
  c.get nalu index

/-- `ISOGetVVCSampleDescriptionPS`: ISOSampleDescriptions.c 1233-1258. -/
def getVvcSet (C : Class α) (input : Bytes) (nalu index : Nat) : Res Bytes := do
  let x ← openAs C .visual typesVvc input
  let (_, c) ← findVvc (anyExt x)
  c.get nalu index

/-- The loop over the seven arrays: ISOSampleDescriptions.c 1280-1292, 2282-2294. -/
def countOf (c : Vvc) (nalu : Nat) : Res Nat :=
  match c.arrays.find? (fun a => a.type == nalu) with
  | some a => .ok a.nals.length
  | none => .err .badParam

/-- `ISOGetVVCNaluNums`: ISOSampleDescriptions.c 1260-1297. -/
def getVvcCount (C : Class α) (input : Bytes) (nalu : Nat) : Res Nat := do
  let x ← openAs C .visual typesVvc input
  let (_, c) ← findVvc (anyExt x)
  countOf c nalu

/-- `ISOGetVVCSampleDescription`: ISOSampleDescriptions.c 2258-2299. -/
def getVvc (C : Class α) (input : Bytes) (nalu : Nat) : Res (Nat × Nat × Nat) := do
  let x ← openAs C .visual typesVvc input
  let (_, c) ← findVvc (anyExt x)
  let n ← countOf c nalu
  .ok (anyDref x, w32(c.lengthSize1 + 1), n)

/-- `ISOGetVVCSubpicSampleDescription`: ISOSampleDescriptions.c 2301-2325. -/
def getSubpic (C : Class α) (input : Bytes) : Res (Nat × Nat) := do
  let x ← openAs C .visual [typeVvs1] input
  let n ← findVvn (anyExt x)
  .ok (anyDref x, w32(n + 1))

/-- `ISOGetRESVSampleDescriptionPS`: ISOSampleDescriptions.c 1299-1329. -/
def getResvSet (C : Class α) (input : Bytes) (kind index : Nat) : Res Bytes := do
  let x ← openAs C .visual [typeResv] input
  match findHevc (anyExt x) with
  | .ok c => c.get kind index
  | .ub => .ub
  | .err _ => do
    let (_, c) ← findAvc (anyExt x)
    c.get kind index

/-- `ISOGetNALUnitLength`: ISOSampleDescriptions.c 1331-1392. -/
def nalLength (C : Class α) (input : Bytes) : Res Nat := do
  let x ← openAs C .visual ([typeResv, fcc 'h' 'v' 'c' '1', typeAvc1] ++ typesVvc) input
  match findVvn (anyExt x) with
  | .ok n => .ok (w32(n + 1))
  | .ub => .ub
  | .err _ =>
    match findHevc (anyExt x) with
    | .ok c => .ok (w32(c.lengthSize1 + 1))
    | .ub => .ub
    | .err _ =>
      match findAvc (anyExt x) with
      | .ok (_, c) => .ok c.lengthSize
      | .ub => .ub
      | .err _ => do
        let (_, c) ← findVvc (anyExt x)
        .ok (w32(c.lengthSize1 + 1))

/-! ## Adding -/

/-- `ISOAddVCSampleDescriptionPS`: ISOSampleDescriptions.c 1088-1116. -/
def addAvcSet (C : Class α) (input : Bytes) (op : Nat × Bytes) : Res Bytes := do
  let x ← openAs C .generic [typeAvc1] input
  let (i, c) ← findAvc (anyExt x)
  let c ← c.add op.1 op.2
  store (codecs C) (setAnyExt ((anyExt x).set i (.avc c)) x)

/-- `ISOAddVVCSampleDescriptionPS`: ISOSampleDescriptions.c 1201-1231. -/
def addVvcSet (C : Class α) (input : Bytes) (op : Nat × Bytes) : Res Bytes := do
  let x ← openAs C .generic typesVvc input
  let (i, c) ← findVvc (anyExt x)
  let c ← c.add op.1 op.2
  store (codecs C) (setAnyExt ((anyExt x).set i (.vvc c)) x)

/-! ## New descriptions -/

/-- `width << 16`, `height << 16`: TrackAtom.c 281-282. -/
def trackSize (width height : Nat) : Nat × Nat := (w32(width * 65536), w32(height * 65536))

/-- The entry of a visual track with one box. -/
def entryOf (type dref : Nat) (f : Video) (b : Cx α) : Any (Cx α) := .visual ⟨type, zeros, dref, f, [b]⟩

/-- `ISONewAVCSampleDescription`: ISOSampleDescriptions.c 988-1086. -/
def newAvc (C : Class α) (visual : Bool) (dref lengthSize : Nat) (sps : Bytes) (pps spsext : Option Bytes) : Res Bytes :=
  if visual then do
    let c ← ParamSet.newAvc lengthSize sps pps spsext
    store (codecs C) (entryOf typeAvc1 dref newVideo (.avc c))
  else .err .badParam

/-- `ISONewHEVCSampleDescription`: ISOSampleDescriptions.c 1470-1672; the handle and the size of the track. -/
def newHevc (C : Class α) (visual : Bool) (dref lengthSize : Nat) (sps : Bytes) (pps vps : Option Bytes) :
    Res (Bytes × Nat × Nat) :=
  if visual then do
    let (c, w, h) ← ParamSet.newHevc lengthSize sps pps vps
    let b ← store (codecs C) (entryOf (fcc 'h' 'v' 'c' '1') dref { newVideo with width := w, height := h } (.hevc c))
    .ok (b, trackSize w h)
  else .err .badParam

/-- `ISONewVVCSampleDescription`: ISOSampleDescriptions.c 1872-2213. -/
def newVvc (C : Class α) (visual : Bool) (dref lengthSize : Nat) (sps : Bytes) (pps : Option Bytes) :
    Res (Bytes × Nat × Nat) :=
  if visual then do
    let (c, w, h) ← ParamSet.newVvc lengthSize sps pps
    let b ← store (codecs C) (entryOf (fcc 'v' 'v' 'c' '1') dref { newVideo with width := w, height := h } (.vvc c))
    .ok (b, trackSize w h)
  else .err .badParam

/-- `ISONewVVCSubpicSampleDescription`: ISOSampleDescriptions.c 2216-2256. -/
def newSubpic (C : Class α) (visual : Bool) (dref width height lengthSize : Nat) : Res (Bytes × Nat × Nat) :=
  if lengthSize ≠ 1 ∧ lengthSize ≠ 2 ∧ lengthSize ≠ 4 then .err .badParam
  else if visual then do
    let b ← store (codecs C) (entryOf typeVvs1 dref { newVideo with width := width, height := height } (.vvn 0 0 (lengthSize - 1)))
    .ok (b, trackSize width height)
  else .err .badParam

end Verif.Cod
