import Verif.Model.Entries
import Verif.Spec.Box

/-!
# Sample entries: what is on the wire, and what it means to survive
-/

namespace Verif.Ent

variable {α : Type}

/-- Reading `bytes`, followed by anything, gives `x`, leaves what follows, and finds a header with the type and the
size of the box. -/
def Reads (C : Class α) (type : Nat) (x : α) (bytes : Bytes) : Prop :=
  8 ≤ bytes.length ∧ ∀ rest : Bytes, ∃ h : Hdr, h.type = type ∧ h.size = bytes.length ∧
    parseAtom C.parse (bytes ++ rest) = .ok (x, h, rest)

/-- The box `x` is written as `bytes`, of the computed size, and read back from them. -/
structure Survives (C : Class α) (type : Nat) (x : α) (bytes : Bytes) : Prop where
  size : C.size x = bytes.length
  write : runW (C.size x) (C.ser x) = .ok bytes
  read : Reads C type x bytes

/-- A box in an entry: its type, what it is in memory, its bytes. -/
structure Kid (α : Type) where
  type : Nat
  val : α
  bytes : Bytes

/-- The boxes that the library drops: `free` and `skip`. -/
def Dropped (type : Nat) : Prop := type = fcc 'f' 'r' 'e' 'e' ∨ type = fcc 's' 'k' 'i' 'p'

instance (type : Nat) : Decidable (Dropped type) := inferInstanceAs (Decidable (_ ∨ _))

/-- The boxes survive by themselves, and none is of the types that are dropped. -/
def Family (C : Class α) (ks : List (Kid α)) : Prop :=
  ∀ k ∈ ks, Survives C k.type k.val k.bytes ∧ ¬ Dropped k.type

/-- The boxes can be read by themselves. -/
def Readable (C : Class α) (ks : List (Kid α)) : Prop := ∀ k ∈ ks, Reads C k.type k.val k.bytes

def vals (ks : List (Kid α)) : List α := ks.map (·.val)
def wire (ks : List (Kid α)) : Bytes := ks.flatMap (·.bytes)
/-- The boxes that are not dropped. -/
def stay (ks : List (Kid α)) : List (Kid α) := ks.filter fun k => ¬ Dropped k.type

/-- A type that can be written in a box header: not 0, and not that of a box with a 16-byte type. -/
def GoodType (t : Nat) : Prop := 0 < t ∧ t < 4294967296 ∧ t ≠ fcc 'u' 'u' 'i' 'd'

/-- ISO/IEC 14496-12, 8.5.2.2 `SampleEntry`: six reserved bytes, 16 bits of data reference index. -/
def headWire (reserved : Bytes) (dref : Nat) : Bytes := reserved ++ be 2 dref

def HeadFits (reserved : Bytes) (dref : Nat) : Prop := reserved.length = 6 ∧ dref < 65536

/-- ISO/IEC 14496-12, 12.1.3.2 `VisualSampleEntry`: the 16 bytes before the width, width, height, resolutions, a reserved
word, the frame count, the name of the compressor with its length, depth, -1. -/
def Video.wire (f : Video) : Bytes :=
  f.reserved2 ++ (be 2 f.width ++ (be 2 f.height ++ (be 4 f.reserved4 ++ (be 4 f.reserved5 ++ (be 4 f.reserved6 ++
    (be 2 f.reserved7 ++ (be 1 f.nameLength ++ (f.name31 ++ (be 2 f.reserved8 ++ be 2 f.reserved9)))))))))

structure Video.Fits (f : Video) : Prop where
  reserved2 : f.reserved2.length = 16
  width : f.width < 65536
  height : f.height < 65536
  reserved4 : f.reserved4 < 4294967296
  reserved5 : f.reserved5 < 4294967296
  reserved6 : f.reserved6 < 4294967296
  reserved7 : f.reserved7 < 65536
  nameLength : f.nameLength < 256
  name31 : f.name31.length = 31
  reserved8 : f.reserved8 < 65536
  reserved9 : f.reserved9 < 65536

/-- ISO/IEC 14496-12, 12.2.3.2 `AudioSampleEntry`: eight reserved bytes (the first two are the version in QuickTime),
channels, bits, reserved, and the sampling rate as 16.16. -/
def Audio.wire (f : Audio) : Bytes :=
  f.reserved2 ++ (be 2 f.reserved3 ++ (be 2 f.reserved4 ++ (be 4 f.reserved5 ++ (be 2 f.timeScale ++
    be 2 f.reserved6))))

structure Audio.Fits (f : Audio) : Prop where
  reserved2 : f.reserved2.length = 8
  reserved3 : f.reserved3 < 65536
  reserved4 : f.reserved4 < 65536
  reserved5 : f.reserved5 < 4294967296
  timeScale : f.timeScale < 65536
  reserved6 : f.reserved6 < 65536

/-- The four words of version 1 of a QuickTime sound description. -/
def Qt.wire (q : Qt) : Bytes :=
  be 4 q.samplesPerPacket ++ (be 4 q.bytesPerPacket ++ (be 4 q.bytesPerFrame ++ be 4 q.bytesPerSample))

def Qt.Fits (q : Qt) : Prop :=
  q.samplesPerPacket < 4294967296 ∧ q.bytesPerPacket < 4294967296 ∧ q.bytesPerFrame < 4294967296 ∧
    q.bytesPerSample < 4294967296

def noQt : Qt := ⟨0, 0, 0, 0⟩

/-- The wire of an entry with protection: the boxes, then the protection box. -/
def encWire (reserved : Bytes) (dref : Nat) (w : Bytes) (ks : List (Kid α)) (sinf : Option (Kid α)) : Bytes :=
  headWire reserved dref ++ (w ++ (wire ks ++ wire sinf.toList))

/-- A string on the wire: the text, which is empty for no string, and NUL. -/
def strWire (a : Option Bytes) : Bytes := a.getD [] ++ [0]

/-- A string in memory: no string, or a buffer with the text and NUL. -/
def inMemory (a : Option Bytes) : Option Bytes := a.map (· ++ [0])

/-- No NUL in the text, and not more of it than `n` bytes. -/
def Short (n : Nat) (a : Option Bytes) : Prop := (∀ b ∈ a.getD [], b ≠ 0) ∧ (a.getD []).length ≤ n

def visualTypes : List Nat := [fcc 'm' 'p' '4' 'v', fcc 'a' 'v' 'c' '1', fcc 'h' 'v' 'c' '1', fcc 'v' 'v' 'c' '1',
  fcc 'v' 'v' 'i' '1', fcc 'v' 'v' 's' '1', fcc 's' '2' '6' '3']

def audioTypes : List Nat := [fcc 'm' 'p' '4' 'a', fcc 's' 'a' 'm' 'r', fcc 's' 'a' 'w' 'b', fcc 's' 'a' 'w' 'p']

def otherTypes : List Nat := [fcc 'm' 'p' '4' 's', fcc 'e' 'n' 'c' 'v', fcc 'e' 'n' 'c' 'a', fcc 'r' 'e' 's' 'v',
  fcc 'm' 'e' 't' 'x', fcc 'm' 'e' 't' 't', fcc 'm' 'e' 'b' 'x']

/-- An entry that survives as one of its class, and is of a type of that class. -/
inductive Listed (C : Class α) : Nat → Any α → Bytes → Prop
  | plain {x b} : Survives (plain C) (fcc 'm' 'p' '4' 's') x b → Listed C (fcc 'm' 'p' '4' 's') (.plain x) b
  | visual {t x b} : t ∈ visualTypes → Survives (visual C) t x b → Listed C t (.visual x) b
  | audio {t x b} : t ∈ audioTypes → Survives (audio C) t x b → Listed C t (.audio x) b
  | encVisual {x b} : Survives (encVisual C) (fcc 'e' 'n' 'c' 'v') x b → Listed C (fcc 'e' 'n' 'c' 'v') (.encVisual x) b
  | encAudio {x b} : Survives (encAudio C) (fcc 'e' 'n' 'c' 'a') x b → Listed C (fcc 'e' 'n' 'c' 'a') (.encAudio x) b
  | restricted {x b} : Survives (restricted C) (fcc 'r' 'e' 's' 'v') x b → Listed C (fcc 'r' 'e' 's' 'v') (.restricted x) b
  | xmlMeta {x b} : Survives (xmlMeta C) (fcc 'm' 'e' 't' 'x') x b → Listed C (fcc 'm' 'e' 't' 'x') (.xmlMeta x) b
  | textMeta {x b} : Survives (textMeta C) (fcc 'm' 'e' 't' 't') x b → Listed C (fcc 'm' 'e' 't' 't') (.textMeta x) b
  | mebx {x b} : Survives (mebx C) (fcc 'm' 'e' 'b' 'x') x b → Listed C (fcc 'm' 'e' 'b' 'x') (.mebx x) b
  | generic {t x b} : t ∉ visualTypes ++ audioTypes ++ otherTypes → Survives (generic C) t x b → Listed C t (.generic x) b

end Verif.Ent
