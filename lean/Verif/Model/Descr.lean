import Verif.Core.Box

/-!
# Descriptors (ISO/IEC 14496-1)
BaseDescriptor.c, MP4Descriptors.c, MP4DefaultDescriptor.c, MP4DecoderConfigDescriptor.c,
SLConfigDescriptor.c, MP4IPMPDescriptorPointer.c, MP4ESDescriptor.c, ESDAtom.c

Simplification: descriptors of the other classes (object descriptors, ES_ID descriptors, IPMP tools,
pointers with the tag 0x15, an ES descriptor inside another) are outside the model, inside an ES
descriptor or a decoder configuration; meeting one gives `ub`. Object descriptors and ES_ID
descriptors are in Model/Od.lean.
-/

namespace Verif.Descr

/-! ## Writing -/

/-- `MP4EncodeBaseDescriptor`: BaseDescriptor.c 30-56. `length` is a `u32` difference. -/
def putHeader (tag size : Nat) : W :=
  put8 tag ;;
  put8 ((w32(size + 4294967291) >>> 7 >>> 7 >>> 7 &&& 0x7F) ||| 0x80) ;;
  put8 ((w32(size + 4294967291) >>> 7 >>> 7 &&& 0x7F) ||| 0x80) ;;
  put8 ((w32(size + 4294967291) >>> 7 &&& 0x7F) ||| 0x80) ;;
  put8 (w32(size + 4294967291) &&& 0x7F)

/-- `SERIALIZE_DESCRIPTOR` of a member that may be `NULL`. -/
def nestedOpt {α : Type} (size : α → Nat) (w : α → W) : Option α → W
  | none => W.skip
  | some a => nested (size a) (w a)

/-! ## Reading -/

/-- The size bytes: MP4Descriptors.c 57-66. `size <<= 7` is a `u32` shift. Result: the size and
the number of bytes read, including the tag. -/
def getLength : Bytes → Nat → Nat → Res (Nat × Nat × Bytes)
  | [], _, _ => .err .ioErr
  | b :: r, size, sizeBytes =>
    if b.toNat &&& 0x80 ≠ 0 then getLength r (w32(size <<< 7) ||| (b.toNat &&& 0x7F)) (sizeBytes + 1)
    else .ok (w32(size <<< 7) ||| (b.toNat &&& 0x7F), sizeBytes + 1, r)

/-- `MP4ParseDescriptor`: MP4Descriptors.c 35-143, with the class of the tag as a parameter, and the
`bytesRead += desc->size` of the callers. -/
def getDesc {α : Type} (body : Nat → Nat → P α) : P α := fun s =>
  match s.rest with
  | [] => .err .ioErr
  | tag :: r =>
    match getLength r 0 1 with
    | .ok (size, n, r') =>
      match body tag.toNat w32(size + n) ⟨r', n⟩ with
      | .ok (a, s') => .ok (a, ⟨s'.rest, s.read + w32(size + n)⟩)
      | .err e => .err e
      | .ub => .ub
    | .err e => .err e
    | .ub => .ub

/-! ## Default descriptor -/

/-- `MP4DefaultDescriptor`: tag and data. -/
structure Default where
  tag : Nat
  data : Bytes
  deriving DecidableEq, Repr

/-- `calculateSize`: MP4DefaultDescriptor.c 32-44. -/
def defaultSize (d : Default) : Nat := w32(5 + d.data.length)

/-- `serialize`: MP4DefaultDescriptor.c 46-61. -/
def putDefault (d : Default) : W := putHeader d.tag (defaultSize d) ;; putBytes d.data

/-- `createFromInputStream`: MP4DefaultDescriptor.c 63-76. -/
def getDefault (tag size : Nat) : P Default := do
  let br ← P.bytesRead
  let data ← getBytes w32(size + (4294967296 - br))
  pure ⟨tag, data⟩

/-- Tags with a class of their own: MP4Descriptors.c 68-128. -/
def ownClass (tag : Nat) : Bool :=
  [0x01, 0x02, 0x03, 0x04, 0x06, 0x0A, 0x0E, 0x0F, 0x10, 0x11, 0x15, 0x60, 0x62, 0x63].contains tag

/-! ## Decoder configuration -/

/-- `MP4DecoderConfigDescriptor`. `upstream` is tested for zero only. -/
structure Dec where
  objectType : Nat
  streamType : Nat
  upstream : Bool
  bufferSize : Nat
  maxBitrate : Nat
  avgBitrate : Nat
  info : Option Default
  deriving DecidableEq, Repr

/-- `calculateSize`: MP4DecoderConfigDescriptor.c 30-42. -/
def decSize (d : Dec) : Nat :=
  match d.info with
  | none => 5 + 13
  | some i => w32(5 + 13 + defaultSize i)

/-- `serialize`: MP4DecoderConfigDescriptor.c 44-67. -/
def putDec (d : Dec) : W :=
  putHeader 4 (decSize d) ;;
  put8 d.objectType ;; put8 (w8(d.streamType <<< 2) ||| (if d.upstream then 2 else 0) ||| 1) ;;
  put24 d.bufferSize ;; put32 d.maxBitrate ;; put32 d.avgBitrate ;;
  nestedOpt defaultSize putDefault d.info

/-- A descriptor inside another one, of the default class. -/
def getPlain (tag size : Nat) : P Default := if ownClass tag then P.bad else getDefault tag size

/-- `createFromInputStream`: MP4DecoderConfigDescriptor.c 69-111. A descriptor that is not decoder
specific information (5) is dropped. -/
def getDec (size : Nat) : P Dec := do
  let objectType ← get8
  let val ← get8
  let hi ← get16
  let lo ← get8
  let maxBitrate ← get32
  let avgBitrate ← get32
  let br ← P.bytesRead
  if br < size then do
    let i ← getDesc getPlain
    pure ⟨objectType, val >>> 2, val &&& 2 ≠ 0, w32(hi <<< 8) ||| lo, maxBitrate, avgBitrate,
      if i.tag = 5 then some i else none⟩
  else pure ⟨objectType, val >>> 2, val &&& 2 ≠ 0, w32(hi <<< 8) ||| lo, maxBitrate, avgBitrate, none⟩

/-! ## SL configuration -/

/-- `MP4SLConfigDescriptor`, flags as booleans. -/
structure Sl where
  predefined : Nat
  auStart : Bool
  auEnd : Bool
  randomAccess : Bool
  randomAccessOnly : Bool
  padding : Bool
  timestamps : Bool
  idle : Bool
  durations : Bool
  tsResolution : Nat
  ocrResolution : Nat
  tsLength : Nat
  ocrLength : Nat
  auLength : Nat
  bitrateLength : Nat
  degradationLength : Nat
  auSeqLength : Nat
  packetSeqLength : Nat
  timeScale : Nat
  auDuration : Nat
  cuDuration : Nat
  deriving DecidableEq, Repr

/-- As created: `calloc`. -/
def Sl.zero : Sl :=
  ⟨0, false, false, false, false, false, false, false, false, 0, 0, 0, 0, 0, 0, 0, 0, 0, 0, 0, 0⟩

/-- `calculateSize`: SLConfigDescriptor.c 30-56. -/
def slSize (c : Sl) : Nat :=
  w32(5 + 1 + (if c.predefined = 0 then 15 else 0) + (if c.durations then 8 else 0) +
    (if c.timestamps then 0 else
      w32(c.tsLength * 2) / 8 + (if w32(c.tsLength * 2) &&& 0x7F ≠ 0 then 1 else 0)))

/-- One flag bit: `MAKEFLAG`, SLConfigDescriptor.c 58-59. -/
def flag (b : Bool) (bit : Nat) : Nat := if b then 1 <<< bit else 0

/-- `serialize`: SLConfigDescriptor.c 61-112. Own timestamps are not implemented. -/
def putSl (c : Sl) : W :=
  putHeader 6 (slSize c) ;; put8 c.predefined ;;
  (if c.predefined = 0 then
    put8 (flag c.auStart 7 ||| flag c.auEnd 6 ||| flag c.randomAccess 5 ||| flag c.randomAccessOnly 4 |||
      flag c.padding 3 ||| flag c.timestamps 2 ||| flag c.idle 1 ||| flag c.durations 0) ;;
    put32 c.tsResolution ;; put32 c.ocrResolution ;; put8 c.tsLength ;; put8 c.ocrLength ;; put8 c.auLength ;;
    put8 c.bitrateLength ;;
    put16 (w32(c.degradationLength <<< 12) ||| w32(c.auSeqLength <<< 7) ||| w32(c.packetSeqLength <<< 2) ||| 3)
   else W.skip) ;;
  (if c.durations then put32 c.timeScale ;; put16 c.auDuration ;; put16 c.cuDuration else W.skip) ;;
  (if c.timestamps then W.skip else W.fail .notImplemented)

/-- The part up to the duration: SLConfigDescriptor.c 136-193, and `handlePredefined` 114-134
(`SLConfigPredefinedMP4` is 2). -/
def getSlHead (predefined : Nat) : P Sl :=
  if predefined ≠ 0 then
    (if predefined = 2 then pure { Sl.zero with predefined := 2, timestamps := true } else P.fail .invalidMedia)
  else do
    let f ← get8
    let tsResolution ← get32
    let ocrResolution ← get32
    let tsLength ← get8
    let ocrLength ← get8
    let auLength ← get8
    let bitrateLength ← get8
    let l ← get16
    pure ⟨0, f &&& 128 ≠ 0, f &&& 64 ≠ 0, f &&& 32 ≠ 0, f &&& 16 ≠ 0, f &&& 8 ≠ 0, f &&& 4 ≠ 0, f &&& 2 ≠ 0,
      f &&& 1 ≠ 0, tsResolution, ocrResolution, tsLength, ocrLength, auLength, bitrateLength, l >>> 12,
      l >>> 7 &&& 0x1F, l >>> 2 &&& 0x1F, 0, 0, 0⟩

/-- Lines 195-200. -/
def getSlDurations (c : Sl) : P Sl :=
  if c.durations then do
    let timeScale ← get32
    let auDuration ← get16
    let cuDuration ← get16
    pure { c with timeScale := timeScale, auDuration := auDuration, cuDuration := cuDuration }
  else pure c

/-- Lines 201-217: the start time stamps are read and dropped. The buffer has 1024 bytes. -/
def getSlTimestamps (c : Sl) : P Sl :=
  if c.timestamps then pure c else do
    let n := if (2 * c.tsLength) &&& 7 ≠ 0 then 1 + 2 * c.tsLength / 8 else 2 * c.tsLength / 8
    if n > 1024 then P.fail .notImplemented else do
      let _ ← getBytes n
      pure c

/-- `createFromInputStream`: SLConfigDescriptor.c 138-229. A single byte left over is skipped. -/
def getSl (size : Nat) : P Sl := do
  let predefined ← get8
  let c ← getSlHead predefined
  let c ← getSlDurations c
  let c ← getSlTimestamps c
  let br ← P.bytesRead
  if br = pred32 size then do
    let _ ← get8
    pure c
  else pure c

/-! ## IPMP descriptor pointer -/

/-- `MP4IPMPDescriptorPointer`, with the tag 0x0A. -/
structure Ptr where
  id : Nat
  tool : Nat
  es : Nat
  deriving DecidableEq, Repr

/-- `calculateSize`: MP4IPMPDescriptorPointer.c 27-43. -/
def ptrSize (p : Ptr) : Nat := 5 + 1 + (if p.id = 0xFF then 4 else 0)

/-- `if(self->bytesWritten != self->size) BAILWITHERROR(MP4BadDataErr)`. -/
def checkFull : W := fun s => if s.out.length ≠ s.size then .err .badData else .ok s

/-- `serialize`: MP4IPMPDescriptorPointer.c 45-65. -/
def putPtr (p : Ptr) : W :=
  putHeader 0x0A (ptrSize p) ;; put8 p.id ;; (if p.id = 0xFF then put16 p.tool ;; put16 p.es else W.skip) ;;
  checkFull

/-- `createFromInputStream`: MP4IPMPDescriptorPointer.c 67-84; created with `calloc`. -/
def getPtr (size : Nat) : P Ptr := do
  let id ← get8
  let p ← (if id = 0xFF then do
    let tool ← get16
    let es ← get16
    pure ⟨id, tool, es⟩
  else pure ⟨id, 0, 0⟩ : P Ptr)
  let br ← P.bytesRead
  if br ≠ size then P.fail .badData else pure p

/-! ## ES descriptor -/

/-- `MP4ES_Descriptor`. -/
structure Es where
  esid : Nat
  priority : Nat
  dependsOn : Nat
  url : Bytes
  ocr : Nat
  decoder : Option Dec
  sl : Option Sl
  ipi : Option Default
  qos : Option Default
  ipiData : List Default
  ptrs : List Ptr
  lang : List Default
  ext : List Default
  deriving DecidableEq, Repr

/-- `ADD_DESCRIPTOR_SIZE`: MP4Impl.h 412-418. -/
def sizeOpt {α : Type} (size : α → Nat) : Option α → Nat
  | none => 0
  | some a => size a

/-- `calculateSize`: MP4ESDescriptor.c 91-117. -/
def esSize (e : Es) : Nat :=
  w32(5 + 3 + (if e.dependsOn ≠ 0 then 2 else 0) + (if e.ocr ≠ 0 then 2 else 0) +
    (if e.url.length ≠ 0 then e.url.length + 1 else 0) + sizeOpt decSize e.decoder + sizeOpt slSize e.sl +
    sizeOpt defaultSize e.ipi + sizeOpt defaultSize e.qos + (e.ipiData.map defaultSize).sum +
    (e.lang.map defaultSize).sum + (e.ptrs.map ptrSize).sum + (e.ext.map defaultSize).sum)

/-- `SERIALIZE_DESCRIPTOR_LIST`: MP4Impl.h 517-541. -/
def putList (ds : List Default) : W := W.each (fun d => nested (defaultSize d) (putDefault d)) ds

def putPtrs (ps : List Ptr) : W := W.each (fun p => nested (ptrSize p) (putPtr p)) ps

/-- `serialize`: MP4ESDescriptor.c 119-163. -/
def putEs (e : Es) : W :=
  putHeader 3 (esSize e) ;; put16 e.esid ;;
  put8 (w8(e.priority) ||| (if e.ocr ≠ 0 then 0x20 else 0) ||| (if e.url.length ≠ 0 then 0x40 else 0) |||
    (if e.dependsOn ≠ 0 then 0x80 else 0)) ;;
  (if e.dependsOn ≠ 0 then put16 e.dependsOn else W.skip) ;;
  (if e.url.length ≠ 0 then put8 e.url.length ;; putBytes e.url else W.skip) ;;
  (if e.ocr ≠ 0 then put16 e.ocr else W.skip) ;;
  nestedOpt decSize putDec e.decoder ;; nestedOpt slSize putSl e.sl ;; nestedOpt defaultSize putDefault e.ipi ;;
  putList e.ipiData ;; putPtrs e.ptrs ;; putList e.lang ;; nestedOpt defaultSize putDefault e.qos ;; putList e.ext

/-- A parsed descriptor inside an ES descriptor. -/
inductive Child
  | dec (d : Dec)
  | sl (c : Sl)
  | ptr (p : Ptr)
  | plain (d : Default)
  deriving DecidableEq, Repr

/-- The class by tag, in an ES descriptor: MP4Descriptors.c 68-128. -/
def getChild (tag size : Nat) : P Child :=
  if tag = 4 then do let d ← getDec size; pure (.dec d)
  else if tag = 6 then do let c ← getSl size; pure (.sl c)
  else if tag = 0x0A then do let p ← getPtr size; pure (.ptr p)
  else if ownClass tag then P.bad
  else do let d ← getDefault tag size; pure (.plain d)

/-- Where a parsed descriptor goes: MP4ESDescriptor.c 207-253. -/
def insert (e : Es) : Child → Res Es
  | .dec d => match e.decoder with
    | some _ => .err .invalidMedia
    | none => .ok { e with decoder := some d }
  | .sl c => match e.sl with
    | some _ => .err .invalidMedia
    | none => .ok { e with sl := some c }
  | .ptr p => .ok { e with ptrs := e.ptrs ++ [p] }
  | .plain d =>
    if d.tag = 0x09 then
      (match e.ipi with
       | some _ => .err .invalidMedia
       | none => .ok { e with ipi := some d })
    else if d.tag = 0x0C then
      (match e.qos with
       | some _ => .err .invalidMedia
       | none => .ok { e with qos := some d })
    else if d.tag = 0x43 then .ok { e with lang := e.lang ++ [d] }
    else if d.tag = 0x07 ∨ d.tag = 0x08 then .ok { e with ipiData := e.ipiData ++ [d] }
    else .ok { e with ext := e.ext ++ [d] }

/-- The loop over the descriptors inside: MP4ESDescriptor.c 202-256. Every round reads at least two
bytes, so the number of unread bytes bounds the number of rounds (first argument). -/
def esLoop (size : Nat) : Nat → Es → P Es
  | 0, _ => P.bad
  | fuel + 1, e => do
    let br ← P.bytesRead
    if br < size then do
      let c ← getDesc getChild
      let e' ← P.lift (insert e c)
      esLoop size fuel e'
    else pure e

/-- A member that is read under a condition and keeps its initial value otherwise. -/
def getIf {α : Type} (c : Prop) [Decidable c] (p : P α) (d : α) : P α := if c then p else pure d

/-- `createFromInputStream`: MP4ESDescriptor.c 165-262. -/
def getEs (size : Nat) : P Es := do
  let esid ← get16
  let val ← get8
  let dependsOn ← getIf (val &&& 0x80 ≠ 0) get16 0
  let url ← getIf (val &&& 0x40 ≠ 0) (do let n ← get8; getBytes n) []
  let ocr ← getIf (val &&& 0x20 ≠ 0) get16 0
  let n ← P.available
  esLoop size (n + 1) ⟨esid, val &&& 0x1F, dependsOn, url, ocr, none, none, none, none, [], [], [], []⟩

/-- `addDescriptor`: MP4ESDescriptor.c 30-88. Tags 0x4A to 0x5F (`MP4ISO_OCI_EXT_RANGE`) go to the
first list. -/
def addDescriptor (e : Es) (c : Child) : Res Es :=
  match c with
  | .plain d => if 0x4A ≤ d.tag ∧ d.tag ≤ 0x5F then .ok { e with ipiData := e.ipiData ++ [d] } else insert e c
  | _ => insert e c

/-! ## The `esds` box -/

def typeEsds : Nat := 0x65736473

/-- `calculateSize`: ESDAtom.c 63-78. -/
def esdsSize (e : Es) : Nat := w32(12 + esSize e)

/-- `serialize`: ESDAtom.c 43-61. -/
def esdsSerialize (version flags : Nat) (e : Es) : W :=
  serFull (esdsSize e) typeEsds version flags ;; nested (esSize e) (putEs e) ;; W.assertFull

/-- `createFromInputStream`: ESDAtom.c 80-106, for a descriptor with the ES tag; another class is
outside the model. Without a descriptor the member stays `NULL`. -/
def esdsParse (h : Hdr) : P ((Nat × Nat) × Option Es) := do
  let vf ← getVersionFlags
  let br ← P.bytesRead
  if w32(h.size + (4294967296 - br)) = 0 then pure (vf, none)
  else do
    let e ← getDesc fun tag size => if tag = 3 then getEs size else P.bad
    pure (vf, some e)

end Verif.Descr
