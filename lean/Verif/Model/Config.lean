import Verif.Core.Box

/-!
# Decoder configuration boxes (`avcC`, `hvcC`, `vvcC`, `vvnC`)

VCConfigAtom.c, HEVCConfigAtom.c, VVCConfigAtom.c, VVCNALUConfigAtom.c, and the sample description
functions of ISOSampleDescriptions.c that add a parameter set to a stored configuration and return
one. Parameter sets (handles in linked lists) are lists of byte strings. All sizes are `u32`.
-/

namespace Verif.Config

/-- `PUT16_V(the_size); PUTBYTES(*b, the_size)`: VCConfigAtom.c 97-98, HEVCConfigAtom.c 124-125,
VVCConfigAtom.c 164-165. -/
def putNal (b : Bytes) : W := put16 b.length ;; putBytes b

/-- `GET16_V(the_size)`, a new handle of that size, `GETBYTES_V_MSG`: VCConfigAtom.c 278-284. -/
def getNal : P Bytes := do
  let n ← get16
  getBytes n

/-- `self->size += 2 + the_size` for each element of a list. -/
def nalsSize (l : List Bytes) : Nat := (l.map fun b => 2 + b.length).sum

/-- `MP4GetListEntry(list, index - 1, &b)` and the copy to the caller's handle: an index of 0
becomes `0xFFFFFFFF`. VCConfigAtom.c 377-396. -/
def nth (l : List Bytes) (index : Nat) : Res Bytes :=
  match l[pred32 index]? with
  | some b => .ok b
  | none => .err .badParam

/-! ## AVC -/

/-- `ISOVCConfigAtom`: MP4Atoms.h 1100-1115. `complete_rep` is only tested and set to 0 or 1. -/
structure Avc where
  profile : Nat
  compatibility : Nat
  level : Nat
  lengthSize : Nat
  complete : Bool
  sps : List Bytes
  pps : List Bytes
  chroma : Nat
  luma : Nat
  chromaDepth : Nat
  spsext : List Bytes
  deriving DecidableEq, Repr

namespace Avc

def type : Nat := 0x61766343

/-- The profiles with the extra fields: VCConfigAtom.c 132, 222, 300. -/
def high (c : Avc) : Bool := c.profile == 100 || c.profile == 110 || c.profile == 122 || c.profile == 144

/-- `MP4CreateVCConfigAtom`: VCConfigAtom.c 404-435. -/
def create : Avc := ⟨0, 0, 0, 0, true, [], [], 0, 0, 0, []⟩

/-- `calculateSize`: VCConfigAtom.c 174-249. -/
def calcSize (c : Avc) : Res Nat :=
  if c.sps.length >>> 5 ≠ 0 then .err .badParam
  else if c.pps.length >>> 5 ≠ 0 then .err .badParam
  else .ok (w32(8 + 7 + nalsSize c.sps + nalsSize c.pps +
    (if c.high then 4 + nalsSize c.spsext else 0)))

/-- `serialize`: VCConfigAtom.c 61-172. The lists exist from creation on. -/
def serialize (size : Nat) (c : Avc) : W :=
  serBase size type ;; put8 1 ;; put8 c.profile ;; put8 c.compatibility ;; put8 c.level ;;
  put8 ((if c.complete then 0x80 else 0) ||| 0x7C ||| (pred32 c.lengthSize &&& 3)) ;;
  (if c.sps.length >>> 5 ≠ 0 then W.fail .badParam else put8 (0xE0 ||| (c.sps.length &&& 0x1F))) ;;
  W.each putNal c.sps ;;
  put8 c.pps.length ;; W.each putNal c.pps ;;
  (if c.high then
    put8 (0xFC ||| (c.chroma &&& 3)) ;; put8 (0xF8 ||| (c.luma &&& 7)) ;;
    put8 (0xF8 ||| (c.chromaDepth &&& 7)) ;; put8 c.spsext.length ;; W.each putNal c.spsext
   else W.skip) ;;
  W.assertFull

/-- The extra fields: VCConfigAtom.c 300-321. -/
def getHigh (c : Avc) : P Avc := do
  let ch ← get8
  let lu ← get8
  let cd ← get8
  let n ← get8
  let x ← P.repeat n getNal
  pure { c with chroma := ch &&& 3, luma := lu &&& 7, chromaDepth := cd &&& 7, spsext := x }

/-- `createFromInputStream`: VCConfigAtom.c 251-328. -/
def parse (_ : Hdr) : P Avc := do
  let v ← get8
  if v ≠ 1 then P.fail .badData else
  let profile ← get8
  let compat ← get8
  let level ← get8
  let x ← get8
  let n ← get8
  let sps ← P.repeat (n &&& 0x1F) getNal
  let n ← get8
  let pps ← P.repeat n getNal
  let c : Avc := { create with
    profile := profile, compatibility := compat, level := level,
    complete := decide (x &&& 0x80 ≠ 0), lengthSize := (x &&& 3) + 1, sps := sps, pps := pps }
  if c.high then getHigh c else pure c

/-- `addParameterSet`: VCConfigAtom.c 330-365. -/
def add (c : Avc) (kind : Nat) (ps : Bytes) : Res Avc :=
  if kind &&& 3 = 1 then .ok { c with sps := c.sps ++ [ps] }
  else if kind &&& 3 = 2 then .ok { c with pps := c.pps ++ [ps] }
  else if kind &&& 3 = 3 then .ok { c with spsext := c.spsext ++ [ps] }
  else .err .badParam

/-- `getParameterSet`: VCConfigAtom.c 367-402. -/
def get (c : Avc) (kind index : Nat) : Res Bytes :=
  if kind &&& 3 = 1 then nth c.sps index
  else if kind &&& 3 = 2 then nth c.pps index
  else if kind &&& 3 = 3 then nth c.spsext index
  else .err .badParam

/-- `calculateSize` then `serialize`, as `atomPtrToSampleEntryH` does for the whole sample entry:
ISOSampleDescriptions.c 113-140. -/
def write (c : Avc) : Res Bytes := (calcSize c).bind fun size => runW size (serialize size c)

/-- The configuration in a stored sample entry; the rest of the sample entry is left out. -/
def read (h : Bytes) : Res Avc :=
  match parseAtom parse h with
  | .ok (c, _, _) => .ok c
  | .err e => .err e
  | .ub => .ub

/-- `ISOAddVCSampleDescriptionPS`: ISOSampleDescriptions.c 1089-1117: the stored configuration is
parsed, the set is added and the configuration is written again. -/
def addStored (h : Bytes) (op : Nat × Bytes) : Res Bytes :=
  (read h).bind fun c => (add c op.1 op.2).bind write

/-- `ISOGetVCSampleDescriptionPS`: ISOSampleDescriptions.c 1150-1173. -/
def getStored (h : Bytes) (kind index : Nat) : Res Bytes :=
  (read h).bind fun c => get c kind index

end Avc

/-! ## HEVC -/

/-- One element of `arrays`: MP4Atoms.h 1128-1133, 1188-1193. -/
structure Arr where
  complete : Nat
  type : Nat
  nals : List Bytes
  deriving DecidableEq, Repr

/-- `ISOHEVCConfigAtom`: MP4Atoms.h 1117-1139; `arrays` has 8 elements. `complete_rep` is never
read. -/
structure Hevc where
  profile : Nat
  compatibility : Nat
  level : Nat
  lengthSize1 : Nat
  chroma : Nat
  frameRate : Nat
  nested : Nat
  luma : Nat
  chromaDepth : Nat
  count : Nat
  arrays : List Arr
  deriving DecidableEq, Repr

namespace Hevc

def type : Nat := 0x68766343

/-- The arrays at creation: HEVCConfigAtom.c 348-354. -/
def noArrays : List Arr := (List.range 8).map fun i => ⟨1, 32 + i, []⟩

/-- `MP4CreateHEVCConfigAtom`: HEVCConfigAtom.c 327-361. -/
def create : Hevc := ⟨0, 0, 0, 0, 0, 0, 0, 0, 0, 0, noArrays⟩

/-- `calculateSize`: HEVCConfigAtom.c 136-174. A count above 8 reads past the end of `arrays`. -/
def calcSize (c : Hevc) : Res Nat :=
  if c.count > c.arrays.length then .ub
  else if (c.arrays.take c.count).any fun a => decide (a.nals.length >>> 5 ≠ 0) then .err .badParam
  else .ok (w32(8 + 23 + 3 * c.count + ((c.arrays.take c.count).map fun a => nalsSize a.nals).sum))

/-- One array: HEVCConfigAtom.c 106-127. -/
def putArr (a : Arr) : W :=
  put8 (w32(a.complete <<< 7) ||| a.type) ;; put16 a.nals.length ;; W.each putNal a.nals

/-- `serialize`: HEVCConfigAtom.c 51-134. -/
def serialize (size : Nat) (c : Hevc) : W :=
  serBase size type ;; put8 1 ;; put8 c.profile ;; put32 c.compatibility ;; put32 0 ;; put16 0 ;;
  put8 c.level ;; put16 0xF000 ;; put8 0xFC ;; put8 (0xFC ||| c.chroma) ;; put8 (0xF8 ||| c.luma) ;;
  put8 (0xF8 ||| c.chromaDepth) ;; put16 c.frameRate ;;
  put8 (8 ||| w32(c.nested <<< 2) ||| (c.lengthSize1 &&& 3)) ;; put8 c.count ;;
  (if c.count > c.arrays.length then W.bad else W.each putArr (c.arrays.take c.count)) ;;
  W.assertFull

/-- One array of the stream: HEVCConfigAtom.c 231-250. -/
def getArr : P Arr := do
  let x ← get8
  let n ← get16
  let l ← P.repeat n getNal
  pure ⟨if x &&& 0x80 ≠ 0 then 1 else 0, x &&& 0x3f, l⟩

/-- The loop over the arrays, stored at `arrays[i]`, `arrays[i + 1]`, …: HEVCConfigAtom.c 229-251.
The code stores the first two fields before it reads the rest; a store past the end is undefined
behaviour either way. -/
def getArrs (as : List Arr) : Nat → Nat → P (List Arr)
  | _, 0 => pure as
  | i, n + 1 => do
    if i ≥ as.length then
      let _ ← get8
      P.bad
    else
      let a ← getArr
      getArrs (as.set i a) (i + 1) n

/-- `createFromInputStream`: HEVCConfigAtom.c 176-257. -/
def parse (_ : Hdr) : P Hevc := do
  let v ← get8
  if v ≠ 1 then P.fail .badData else
  let profile ← get8
  let compat ← get32
  let _ ← get32
  let _ ← get16
  let level ← get8
  let _ ← get16
  let _ ← get8
  let chroma ← get8
  let luma ← get8
  let chromaDepth ← get8
  let frameRate ← get16
  let x ← get8
  let n ← get8
  let as ← getArrs noArrays 0 n
  pure ⟨profile &&& 0x1f, compat, level, x &&& 3, chroma &&& 3, frameRate, x >>> 2 &&& 1, luma &&& 7,
    chromaDepth &&& 7, n, as⟩

/-- `addParameterSet`: HEVCConfigAtom.c 259-294: the first array of the type; nothing is stored, and
no error raised, when there is none. -/
def add (c : Hevc) (nalu : Nat) (ps : Bytes) : Hevc :=
  match c.arrays.findIdx? (fun a => a.type == nalu) with
  | none => c
  | some i =>
    match c.arrays[i]? with
    | none => c
    | some a => { c with
        count := if a.nals.length = 0 then w32(c.count + 1) else c.count
        arrays := c.arrays.set i { a with nals := a.nals ++ [ps] } }

/-- `getParameterSet`: HEVCConfigAtom.c 296-325. Only `arrays[0..numOfArrays)` are searched; without
the type, `MP4GetHandleSize` of a null handle fails. -/
def get (c : Hevc) (nalu index : Nat) : Res Bytes :=
  if c.count > c.arrays.length then .ub else
  match (c.arrays.take c.count).find? (fun a => a.type == nalu) with
  | none => .err .badParam
  | some a => nth a.nals index

/-- As `Avc.write`. -/
def write (c : Hevc) : Res Bytes := (calcSize c).bind fun size => runW size (serialize size c)

/-- As `Avc.read`. -/
def read (h : Bytes) : Res Hevc :=
  match parseAtom parse h with
  | .ok (c, _, _) => .ok c
  | .err e => .err e
  | .ub => .ub

/-- `ISOGetHEVCSampleDescriptionPS`: ISOSampleDescriptions.c 1175-1199. -/
def getStored (h : Bytes) (nalu index : Nat) : Res Bytes :=
  (read h).bind fun c => get c nalu index

/-- The end of `ISONewHEVCSampleDescription`: ISOSampleDescriptions.c 1651-1668: each of the three
parameter sets is optional. -/
def newStored (c : Hevc) (vps sps pps : Option Bytes) : Res Bytes :=
  let c := match vps with | some b => add c 32 b | none => c
  let c := match sps with | some b => add c 33 b | none => c
  let c := match pps with | some b => add c 34 b | none => c
  write c

end Hevc

/-! ## VVC -/

/-- `struct PTL`: MP4Atoms.h 1160-1180. `subs` are the 8 pairs of `subPTL`. -/
structure Ptl where
  bytes : Nat
  profile : Nat
  tier : Nat
  level : Nat
  frameOnly : Nat
  multiLayer : Nat
  upper : Nat
  lower : Bytes
  subs : List (Nat × Nat)
  subProfileCount : Nat
  subProfiles : List Nat
  deriving DecidableEq, Repr

/-- `ISOVVCConfigAtom`: MP4Atoms.h 1141-1195; `arrays` has 7 elements. -/
structure Vvc where
  version : Nat
  flags : Nat
  lengthSize1 : Nat
  ptlPresent : Nat
  ols : Nat
  sublayers : Nat
  constantRate : Nat
  chroma : Nat
  depth : Nat
  ptl : Ptl
  width : Nat
  height : Nat
  frameRate : Nat
  count : Nat
  arrays : List Arr
  deriving DecidableEq, Repr

namespace Vvc

def type : Nat := 0x76766343

/-- `nalTypeLut`, `nalType`: VVCConfigAtom.c 263, 500. -/
def lut : List Nat := [15, 16, 14, 12, 13, 17, 23]

/-- The arrays at creation: VVCConfigAtom.c 515-522. -/
def noArrays : List Arr := lut.map fun t => ⟨1, t, []⟩

def noPtl : Ptl := ⟨0, 0, 0, 0, 0, 0, 0, [], List.replicate 8 (0, 0), 0, []⟩

/-- `MP4CreateVVCConfigAtom`: VVCConfigAtom.c 488-528. -/
def create : Vvc := ⟨0, 0, 0, 0, 0, 0, 0, 0, 0, noPtl, 0, 0, 0, 0, noArrays⟩

/-- Types whose array holds one NAL unit and no count: VVCConfigAtom.c 144-145, 225-226, 383-384. -/
def single (t : Nat) : Bool := t == 13 || t == 12

/-- The sub-layers in the order of the loops `for(i = num_sublayers - 2; i >= 0; i--)`.
Simplification: above 9 sub-layers (which a parsed box cannot hold) the index leaves `subPTL`; the
model says so in `sublayersOk` also for the values of 2^31 + 2 and more, for which the loop is
empty. -/
def subList (c : Vvc) : List (Nat × Nat) := (c.ptl.subs.take (c.sublayers - 1)).reverse

def sublayersOk (c : Vvc) : Bool := decide (c.sublayers ≤ c.ptl.subs.length + 1)

/-- Size of one array: VVCConfigAtom.c 218-247; the assertion requires one NAL unit. -/
def arrSize (a : Arr) : Res Nat :=
  if a.nals.length = 0 then .ok 0
  else if single a.type then (if a.nals.length = 1 then .ok (1 + nalsSize a.nals) else .ub)
  else .ok (3 + nalsSize a.nals)

def arrsSize : List Arr → Res Nat
  | [] => .ok 0
  | a :: as => (arrSize a).bind fun m => (arrsSize as).bind fun n => .ok (m + n)

/-- Size of the profile, tier and level part: VVCConfigAtom.c 186-211. -/
def ptlSize (c : Vvc) : Nat :=
  3 + (3 + c.ptl.bytes + (if c.sublayers ≥ 2 then 1 else 0) +
    ((subList c).filter fun s => s.1 ≠ 0).length + 1 + 4 * c.ptl.subProfileCount) + 6

/-- `calculateSize`: VVCConfigAtom.c 174-254. -/
def calcSize (c : Vvc) : Res Nat :=
  if c.ptlPresent ≠ 0 ∧ sublayersOk c = false then .ub else
  (if c.count ≠ 0 then arrsSize c.arrays else .ok 0).bind fun n =>
    .ok (w32(12 + 1 + (if c.ptlPresent ≠ 0 then ptlSize c else 0) + 1 + n))

/-- `x |= ptl_sublayer_level_present_flag << cnt; cnt--`: VVCConfigAtom.c 97-104. -/
def flagBits : Nat → List (Nat × Nat) → Nat
  | _, [] => 0
  | cnt, s :: ss => w32(s.1 <<< cnt) ||| flagBits (cnt - 1) ss

/-- The profile, tier and level part: VVCConfigAtom.c 64-131. Reading past the end of the constraint
bytes or of the sub-profiles is undefined behaviour. -/
def putPtl (c : Vvc) : W :=
  put16 (w32(c.ols <<< 7) ||| w32(c.sublayers <<< 4) ||| w32(c.constantRate <<< 2) ||| c.chroma) ;;
  put8 (w32(c.depth <<< 5) ||| 0x1F) ;;
  put8 c.ptl.bytes ;; put8 (w32(c.ptl.profile <<< 1) ||| c.ptl.tier) ;; put8 c.ptl.level ;;
  put8 (w32(c.ptl.frameOnly <<< 7) ||| w32(c.ptl.multiLayer <<< 6) ||| c.ptl.upper) ;;
  (if c.ptl.bytes > 1 then
    (if c.ptl.lower.length < c.ptl.bytes - 1 then W.bad else putBytes (c.ptl.lower.take (c.ptl.bytes - 1)))
   else W.skip) ;;
  (if sublayersOk c then W.skip else W.bad) ;;
  (if c.sublayers ≥ 2 then put8 (flagBits 7 (subList c)) else W.skip) ;;
  W.each (fun s => put8 s.2) ((subList c).filter fun s => s.1 ≠ 0) ;;
  put8 c.ptl.subProfileCount ;;
  (if c.ptl.subProfiles.length < c.ptl.subProfileCount then W.bad
   else W.each put32 (c.ptl.subProfiles.take c.ptl.subProfileCount)) ;;
  put16 c.width ;; put16 c.height ;; put16 c.frameRate

/-- One array: VVCConfigAtom.c 135-167. -/
def putArr (a : Arr) : W :=
  if a.nals.length = 0 then W.skip
  else
    put8 (w32(a.complete <<< 7) ||| a.type) ;;
    (if single a.type then (if a.nals.length = 1 then W.skip else W.bad) else put16 a.nals.length) ;;
    W.each putNal a.nals

/-- `serialize`: VVCConfigAtom.c 49-172. There is no assertion at the end. -/
def serialize (size : Nat) (c : Vvc) : W :=
  serFull size type c.version c.flags ;;
  put8 (0xF8 ||| w32(c.lengthSize1 <<< 1) ||| c.ptlPresent) ;;
  (if c.ptlPresent ≠ 0 then putPtl c else W.skip) ;;
  put8 c.count ;; W.each putArr c.arrays

/-- The sub-layer levels: VVCConfigAtom.c 330-343, in the order of the loops, with the flags byte
`x` and the mask `helper`. The flags of all sub-layers are taken before the levels are read, which
is the same. -/
def getSubs (x : Nat) : Nat → Nat → P (List (Nat × Nat))
  | _, 0 => pure []
  | helper, n + 1 => do
    if x &&& helper ≠ 0 then
      let level ← get8
      let rest ← getSubs x (helper >>> 1) n
      pure ((1, level) :: rest)
    else
      let rest ← getSubs x (helper >>> 1) n
      pure ((0, 0) :: rest)

/-- `general_sub_profile_idc` is a null pointer in a new box: VVCConfigAtom.c 345-349. -/
def getSubProfiles : Nat → P (List Nat)
  | 0 => pure []
  | _ + 1 => do
    let _ ← get32
    P.bad

/-- The optional bytes of the constraints: VVCConfigAtom.c 316-324. -/
def getLower (n : Nat) : P Bytes := if n > 1 then getBytes (n - 1) else pure []

/-- The flags byte is only read for 2 or more sub-layers: VVCConfigAtom.c 326-343. -/
def getLevels (n : Nat) : P (List (Nat × Nat)) :=
  if n ≥ 2 then do
    let x ← get8
    getSubs x 0x80 (n - 1)
  else pure []

/-- The profile, tier and level part: VVCConfigAtom.c 275-355. -/
def getPtl (c : Vvc) : P Vvc := do
  let x ← get16
  let d ← get8
  let bytes ← get8
  let p ← get8
  let level ← get8
  let u ← get8
  let lower ← getLower (bytes &&& 0x3f)
  let subs ← getLevels ((x &&& 0x0070) >>> 4)
  let spc ← get8
  let sp ← getSubProfiles spc
  let w ← get16
  let h ← get16
  let f ← get16
  pure { c with
    ols := (x &&& 0xff80) >>> 7, sublayers := (x &&& 0x0070) >>> 4
    constantRate := (x &&& 0x000c) >>> 2, chroma := x &&& 3, depth := (d &&& 0xe0) >>> 5
    ptl := ⟨bytes &&& 0x3f, (p &&& 0xfe) >>> 1, p &&& 1, level, (u &&& 0x80) >>> 7, (u &&& 0x40) >>> 6,
      u &&& 0x3f, lower, subs.reverse ++ List.replicate (8 - subs.length) (0, 0), spc, sp⟩
    width := w, height := h, frameRate := f }

/-- Number of NAL units of an array of type `t`: VVCConfigAtom.c 383-391. -/
def getCount (t : Nat) : P Nat := if single t then pure 1 else get16

/-- One array of the stream: VVCConfigAtom.c 361-404. A type that is not in the table runs into
`assert(0)`. -/
def getArr (as : List Arr) : P (List Arr) := do
  let x ← get8
  match lut.findIdx? (fun t => t == (x &&& 0x1f)) with
  | none => P.bad
  | some i =>
    let n ← getCount (x &&& 0x1f)
    let l ← P.repeat n getNal
    pure (as.set i ⟨if x &&& 0x80 ≠ 0 then 1 else 0, x &&& 0x1f, l⟩)

def getArrs : Nat → List Arr → P (List Arr)
  | 0, as => pure as
  | n + 1, as => do
    let as' ← getArr as
    getArrs n as'

/-- `createFromInputStream`: VVCConfigAtom.c 256-410. -/
def parse (_ : Hdr) : P Vvc := do
  let (version, flags) ← getVersionFlags
  let x ← get8
  let c : Vvc := { create with
    version := version, flags := flags, lengthSize1 := (x &&& 6) >>> 1, ptlPresent := x &&& 1 }
  let c ← (if x &&& 1 ≠ 0 then getPtl c else pure c)
  let n ← get8
  let as ← getArrs n noArrays
  pure { c with count := n, arrays := as }

/-- `addParameterSet`: VVCConfigAtom.c 412-451. -/
def add (c : Vvc) (nalu : Nat) (ps : Bytes) : Res Vvc :=
  match c.arrays.findIdx? (fun a => a.type == nalu) with
  | none => .err .badParam
  | some i =>
    match c.arrays[i]? with
    | none => .err .badParam
    | some a => .ok { c with
        count := if a.nals.length = 0 then w32(c.count + 1) else c.count
        arrays := c.arrays.set i { a with nals := a.nals ++ [ps] } }

/-- `getParameterSet`: VVCConfigAtom.c 453-486. -/
def get (c : Vvc) (nalu index : Nat) : Res Bytes :=
  match c.arrays.find? (fun a => a.type == nalu) with
  | none => .err .badParam
  | some a => nth a.nals index

/-- As `Avc.write`. -/
def write (c : Vvc) : Res Bytes := (calcSize c).bind fun size => runW size (serialize size c)

/-- As `Avc.read`. -/
def read (h : Bytes) : Res Vvc :=
  match parseAtom parse h with
  | .ok (c, _, _) => .ok c
  | .err e => .err e
  | .ub => .ub

/-- `ISOAddVVCSampleDescriptionPS`: ISOSampleDescriptions.c 1201-1231. -/
def addStored (h : Bytes) (op : Nat × Bytes) : Res Bytes :=
  (read h).bind fun c => (add c op.1 op.2).bind write

/-- `ISOGetVVCSampleDescriptionPS`: ISOSampleDescriptions.c 1233-1258. -/
def getStored (h : Bytes) (nalu index : Nat) : Res Bytes :=
  (read h).bind fun c => get c nalu index

end Vvc

/-! ## The box with the length size only -/

namespace Vvn

def type : Nat := 0x76766e43

/-- `serialize`: VVCNALUConfigAtom.c 54-68. -/
def serialize (version flags lengthSize1 : Nat) : W :=
  serFull 13 type version flags ;; put8 lengthSize1

/-- `createFromInputStream`: VVCNALUConfigAtom.c 34-52. -/
def parse (_ : Hdr) : P (Nat × Nat × Nat) := do
  let (version, flags) ← getVersionFlags
  let x ← get8
  pure (version, flags, x &&& 3)

end Vvn

end Verif.Config
