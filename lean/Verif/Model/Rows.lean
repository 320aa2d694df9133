import Verif.Core.Box

/-!
# Boxes with a fixed row of fields, and two plain tables

VideoMediaHeaderAtom.c, SoundMediaHeaderAtom.c, HintMediaHeaderAtom.c, TrackExtendsAtom.c,
ProducerReferenceTimeAtom.c, OriginalFormatAtom.c, BitRateAtom.c, PCMConfigAtom.c, AMRSpecificInfoAtom.c,
AMRWPSpecificInfoAtom.c, ISMASampleFormatAtom.c, ISMASaltAtom.c, MetaboxRelationAtom.c, PrimaryItemAtom.c,
ShadowSyncAtom.c, DegradationPriorityAtom.c.

Each box has its `serialize` with the size of its `calculateSize`, and its `createFromInputStream`. Version
and flags are parameters. A failed assertion is undefined behaviour.
-/

namespace Verif.Rows

abbrev VF := Nat × Nat

/-- `assert(self->bytesRead == self->size)`. -/
def assertRead {α : Type} (h : Hdr) (v : α) : P α := do
  let r ← P.bytesRead
  if r ≠ h.size then P.bad else pure v

/-! ## Media headers -/

def typeVmhd : Nat := 0x766d6864
structure Vmhd where
  mode : Nat
  red : Nat
  green : Nat
  blue : Nat
  deriving DecidableEq, Repr

/-- VideoMediaHeaderAtom.c 36-69. -/
def Vmhd.serialize (version flags : Nat) (x : Vmhd) : W :=
  serFull w32(12 + 8) typeVmhd version flags ;; put16 x.mode ;; put16 x.red ;; put16 x.green ;;
  put16 x.blue ;; W.assertFull

/-- VideoMediaHeaderAtom.c 71-91: the fields are read only if there are 8 bytes left. -/
def Vmhd.parse (h : Hdr) : P (VF × Vmhd) := do
  let vf ← getVersionFlags
  let r ← P.bytesRead
  if h.size = r + 8 then
    let a ← get16
    let b ← get16
    let c ← get16
    let d ← get16
    pure (vf, ⟨a, b, c, d⟩)
  else pure (vf, ⟨0, 0, 0, 0⟩)

def typeSmhd : Nat := 0x736d6864
structure Smhd where
  balance : Nat
  reserved : Nat
  deriving DecidableEq, Repr

/-- SoundMediaHeaderAtom.c 36-67. -/
def Smhd.serialize (version flags : Nat) (x : Smhd) : W :=
  serFull w32(12 + 4) typeSmhd version flags ;; put16 x.balance ;; put16 x.reserved ;; W.assertFull

/-- SoundMediaHeaderAtom.c 69-85. -/
def Smhd.parse (_ : Hdr) : P (VF × Smhd) := do
  let vf ← getVersionFlags
  let a ← get16
  let b ← get16
  pure (vf, ⟨a, b⟩)

def typeHmhd : Nat := 0x686d6864
structure Hmhd where
  maxPDU : Nat
  avgPDU : Nat
  maxRate : Nat
  avgRate : Nat
  sliding : Nat
  deriving DecidableEq, Repr

/-- HintMediaHeaderAtom.c 36-70. -/
def Hmhd.serialize (version flags : Nat) (x : Hmhd) : W :=
  serFull w32(12 + 16) typeHmhd version flags ;; put16 x.maxPDU ;; put16 x.avgPDU ;; put32 x.maxRate ;;
  put32 x.avgRate ;; put32 x.sliding ;; W.assertFull

/-- HintMediaHeaderAtom.c 72-91. -/
def Hmhd.parse (_ : Hdr) : P (VF × Hmhd) := do
  let vf ← getVersionFlags
  let a ← get16
  let b ← get16
  let c ← get32
  let d ← get32
  let e ← get32
  pure (vf, ⟨a, b, c, d, e⟩)

/-! ## Track extends, producer reference time -/

def typeTrex : Nat := 0x74726578
structure Trex where
  track : Nat
  desc : Nat
  duration : Nat
  size : Nat
  sampleFlags : Nat
  deriving DecidableEq, Repr

/-- TrackExtendsAtom.c 36-71. -/
def Trex.serialize (version flags : Nat) (x : Trex) : W :=
  serFull w32(12 + 20) typeTrex version flags ;; put32 x.track ;; put32 x.desc ;; put32 x.duration ;;
  put32 x.size ;; put32 x.sampleFlags ;; W.assertFull

/-- TrackExtendsAtom.c 73-93. -/
def Trex.parse (_ : Hdr) : P (VF × Trex) := do
  let vf ← getVersionFlags
  let a ← get32
  let b ← get32
  let c ← get32
  let d ← get32
  let e ← get32
  pure (vf, ⟨a, b, c, d, e⟩)

def typePrft : Nat := 0x70726674
structure Prft where
  track : Nat
  ntp : Nat
  media : Nat
  deriving DecidableEq, Repr

/-- ProducerReferenceTimeAtom.c 45-82; there is no assertion, and one layout for all versions. -/
def Prft.serialize (version flags : Nat) (x : Prft) : W :=
  serFull w32(12 + 16) typePrft version flags ;; put32 x.track ;; put64 x.ntp ;; put32 x.media

/-- ProducerReferenceTimeAtom.c 84-104. -/
def Prft.parse (h : Hdr) : P (VF × Prft) := do
  let vf ← getVersionFlags
  let a ← get32
  let b ← get64
  let c ← get32
  assertRead h (vf, ⟨a, b, c⟩)

/-! ## Formats -/

def typeFrma : Nat := 0x66726d61

/-- OriginalFormatAtom.c 40-71. -/
def frmaSerialize (format : Nat) : W := serBase w32(8 + 4) typeFrma ;; put32 format ;; W.assertFull

/-- OriginalFormatAtom.c 73-89. -/
def frmaParse (h : Hdr) : P Nat := do
  let a ← get32
  assertRead h a

def typeBtrt : Nat := 0x62747274
structure Btrt where
  buffer : Nat
  max : Nat
  avg : Nat
  deriving DecidableEq, Repr

/-- BitRateAtom.c 66-80. -/
def Btrt.calcSize (type : Nat) : Nat := if type = typeBtrt then w32(w32(8 + 8) + 4) else w32(8 + 8)

/-- BitRateAtom.c 38-64; `type` is `'btrt'` or the 3GPP `'bitr'`. -/
def Btrt.serialize (type : Nat) (x : Btrt) : W :=
  serBase (Btrt.calcSize type) type ;;
  (if type = typeBtrt then put32 x.buffer ;; put32 x.max ;; put32 x.avg ;; W.assertFull
    else put32 x.avg ;; put32 x.max ;; W.assertFull)

/-- BitRateAtom.c 82-107. -/
def Btrt.parse (h : Hdr) : P Btrt :=
  if h.type = typeBtrt then do
    let a ← get32
    let b ← get32
    let c ← get32
    pure ⟨a, b, c⟩
  else do
    let c ← get32
    let b ← get32
    pure ⟨0, b, c⟩

def typePcmC : Nat := 0x70636d43
structure PcmC where
  format : Nat
  sampleSize : Nat
  deriving DecidableEq, Repr

/-- PCMConfigAtom.c 35-73. -/
def PcmC.serialize (version flags : Nat) (x : PcmC) : W :=
  serFull w32(12 + 2) typePcmC version flags ;; put8 x.format ;; put8 x.sampleSize ;; W.assertFull

/-- PCMConfigAtom.c 75-96. -/
def PcmC.parse (h : Hdr) : P (VF × PcmC) := do
  let vf ← getVersionFlags
  let a ← get8
  let b ← get8
  assertRead h (vf, ⟨a, b⟩)

def typeDamr : Nat := 0x64616d72
structure Damr where
  vendor : Nat
  decoder : Nat
  modeSet : Nat
  period : Nat
  frames : Nat
  deriving DecidableEq, Repr

/-- AMRSpecificInfoAtom.c 38-73. -/
def Damr.serialize (x : Damr) : W :=
  serBase w32(8 + 9) typeDamr ;; put32 x.vendor ;; put8 x.decoder ;; put16 x.modeSet ;; put8 x.period ;;
  put8 x.frames ;; W.assertFull

/-- AMRSpecificInfoAtom.c 75-95. -/
def Damr.parse (_ : Hdr) : P Damr := do
  let a ← get32
  let b ← get8
  let c ← get16
  let d ← get8
  let e ← get8
  pure ⟨a, b, c, d, e⟩

def typeDawp : Nat := 0x64617770

/-- AMRWPSpecificInfoAtom.c 38-69. -/
def dawpSerialize (vendor decoder : Nat) : W :=
  serBase w32(8 + 5) typeDawp ;; put32 vendor ;; put8 decoder ;; W.assertFull

/-- AMRWPSpecificInfoAtom.c 71-88. -/
def dawpParse (_ : Hdr) : P (Nat × Nat) := do
  let a ← get32
  let b ← get8
  pure (a, b)

def typeISFM : Nat := 0x6953464d
structure ISFM where
  selective : Nat
  keyLen : Nat
  ivLen : Nat
  deriving DecidableEq, Repr

/-- ISMASampleFormatAtom.c 40-73. -/
def ISFM.serialize (version flags : Nat) (x : ISFM) : W :=
  serFull w32(12 + 3) typeISFM version flags ;; put8 x.selective ;; put8 x.keyLen ;; put8 x.ivLen ;; W.assertFull

/-- ISMASampleFormatAtom.c 75-93. -/
def ISFM.parse (h : Hdr) : P (VF × ISFM) := do
  let vf ← getVersionFlags
  let a ← get8
  let b ← get8
  let c ← get8
  assertRead h (vf, ⟨a, b, c⟩)

def typeISLT : Nat := 0x69534c54

/-- ISMASaltAtom.c 40-71. -/
def isltSerialize (salt : Nat) : W := serBase w32(8 + 8) typeISLT ;; put64 salt ;; W.assertFull

/-- ISMASaltAtom.c 73-89. -/
def isltParse (h : Hdr) : P Nat := do
  let a ← get64
  assertRead h a

/-! ## Items -/

def typeMere : Nat := 0x6d657265
structure Mere where
  first : Nat
  second : Nat
  relation : Nat
  deriving DecidableEq, Repr

/-- MetaboxRelationAtom.c 38-72. -/
def Mere.serialize (version flags : Nat) (x : Mere) : W :=
  serFull w32(12 + 9) typeMere version flags ;; put32 x.first ;; put32 x.second ;; put8 x.relation ;; W.assertFull

/-- MetaboxRelationAtom.c 74-94. -/
def Mere.parse (h : Hdr) : P (VF × Mere) := do
  let vf ← getVersionFlags
  let a ← get32
  let b ← get32
  let c ← get8
  assertRead h (vf, ⟨a, b, c⟩)

def typePitm : Nat := 0x7069746d

/-- PrimaryItemAtom.c 35-66; the same for all versions. -/
def pitmSerialize (version flags item : Nat) : W :=
  serFull w32(12 + 2) typePitm version flags ;; put16 item ;; W.assertFull

/-- PrimaryItemAtom.c 68-84. -/
def pitmParse (_ : Hdr) : P (VF × Nat) := do
  let vf ← getVersionFlags
  let a ← get16
  pure (vf, a)

/-! ## Tables -/

def typeStsh : Nat := 0x73747368

/-- ShadowSyncAtom.c 74-87. -/
def stshSize (n : Nat) : Nat := w32(12 + w32(4 + w32(8 * n)))

/-- ShadowSyncAtom.c 49-72. -/
def stshSerialize (version flags : Nat) (es : List (Nat × Nat)) : W :=
  serFull (stshSize es.length) typeStsh version flags ;; put32 es.length ;;
  W.each (fun e => put32 e.1 ;; put32 e.2) es ;; W.assertFull

/-- ShadowSyncAtom.c 89-118. -/
def stshParse (_ : Hdr) : P (VF × List (Nat × Nat)) := do
  let vf ← getVersionFlags
  let n ← get32
  let es ← P.repeat n (do
    let a ← get32
    let b ← get32
    pure (a, b))
  pure (vf, es)

def typeStdp : Nat := 0x73746470

/-- DegradationPriorityAtom.c 65-78. -/
def stdpSize (n : Nat) : Nat := w32(12 + w32(2 * n))

/-- DegradationPriorityAtom.c 44-63. -/
def stdpSerialize (version flags : Nat) (ps : List Nat) : W :=
  serFull (stdpSize ps.length) typeStdp version flags ;; W.each put16 ps ;; W.assertFull

/-- DegradationPriorityAtom.c 80-107: the count comes from the size of the box. -/
def stdpParse (h : Hdr) : P (VF × List Nat) := do
  let vf ← getVersionFlags
  let r ← P.bytesRead
  let ps ← P.repeat (w32(h.size + 4294967296 - r) / 2) get16
  pure (vf, ps)

end Verif.Rows
