import Verif.Model.Entries
import Verif.Model.Saiz
import Verif.Model.Sound

/-!
# Boxes of JPEG 2000, H.263 and stereo video

MJ2SignatureAtom.c, MJ2ImageHeaderAtom.c, MJ2BitsPerComponentAtom.c, MJ2ColorSpecificationAtom.c,
H263SpecificInfoAtom.c, StereoVideoAtom.c. The box around the JPEG 2000 boxes, `jp2h`, is in Model/Tree.

`big` says whether the machine stores the most significant byte first. `long` has 64 bits. An allocation of no bytes is taken to
succeed. A failed assertion is undefined behaviour.
-/

namespace Verif.Jp2

open Verif.Ent (Class listSize serList)
open Verif.Saiz (stores putSizes)
open Verif.Snd (whileBytes)

/-- The bytes of a `u32` in memory. -/
def mem (big : Bool) (v : Nat) : Bytes := if big then be 4 v else (be 4 v).reverse

/-- `PUTBYTES(&self->field, n)` for a `u32` field: MP4Impl.h 250-259. -/
def putMem (big : Bool) (v n : Nat) : W := putBytes ((mem big v).take n)

/-! ## Signature -/

def typeSignature : Nat := 0x6a502020

/-- `MJ2JPEG2000Signature`: MJ2Atoms.h 49. -/
def signature : Nat := 0x0D0A870A

/-- `serialize` with the size of `calculateSize`: MJ2SignatureAtom.c 38-68. -/
def putSignature (big : Bool) (v : Nat) : W :=
  serBase (8 + 4) typeSignature ;; putMem big v 4 ;; W.assertFull

/-- `createFromInputStream`: MJ2SignatureAtom.c 70-84. -/
def getSignature (_ : Hdr) : P Nat := get32

/-! ## Image header -/

def typeIhdr : Nat := 0x69686472

/-- `MJ2ImageHeaderAtom`: MJ2Atoms.h 59-70. All fields are `u32`. -/
structure Ihdr where
  height : Nat
  width : Nat
  compCount : Nat
  compBits : Nat
  compressionType : Nat
  colorspaceKnown : Nat
  ip : Nat
  deriving DecidableEq, Repr

/-- `serialize` with the size of `calculateSize`: MJ2ImageHeaderAtom.c 38-79. -/
def Ihdr.serialize (big : Bool) (x : Ihdr) : W :=
  serBase (8 + 2 * 4 + 2 + 4) typeIhdr ;; putMem big x.height 4 ;; putMem big x.width 4 ;; putMem big x.compCount 2 ;;
  putMem big x.compBits 1 ;; putMem big x.compressionType 1 ;; putMem big x.colorspaceKnown 1 ;; putMem big x.ip 1 ;;
  W.assertFull

/-- `createFromInputStream`: MJ2ImageHeaderAtom.c 81-103. -/
def Ihdr.parse (_ : Hdr) : P Ihdr := do
  let height ← get32
  let width ← get32
  let compCount ← get16
  let compBits ← get8
  let compressionType ← get8
  let colorspaceKnown ← get8
  let ip ← get8
  pure ⟨height, width, compCount, compBits, compressionType, colorspaceKnown, ip⟩

/-! ## Bits per component -/

def typeBpcc : Nat := 0x62706363

/-- The box in memory: `bitsPerComponent`, with `bpcCount` its length. New: MJ2BitsPerComponentAtom.c 151-155. -/
def newBpcc : List Nat := [0]

/-- `addbpcItem`: MJ2BitsPerComponentAtom.c 82-95. -/
def addBpcc (l : List Nat) (bpc : Nat) : List Nat := l ++ [w8(bpc)]

/-- `calculateSize`: MJ2BitsPerComponentAtom.c 67-80. -/
def bpccSize (l : List Nat) : Nat := w32(8 + l.length)

/-- `serialize`: MJ2BitsPerComponentAtom.c 43-65. -/
def putBpcc (l : List Nat) : W := serBase (bpccSize l) typeBpcc ;; W.each put8 l ;; W.assertFull

/-- `createFromInputStream`: MJ2BitsPerComponentAtom.c 97-130. -/
def getBpcc (room : Bool) (h : Hdr) : P (List Nat) := do
  let br ← P.bytesRead
  let n := w32(h.size + 4294967296 - br)
  if n = 0 then P.fail .badData else stores room n

/-! ## Color specification -/

def typeColr : Nat := 0x636f6c72

/-- `MJ2ColorSpecificationAtom`: MJ2Atoms.h 87-97; `profileSize` is the length of `profile`. -/
structure Colr where
  method : Nat
  precedence : Nat
  approx : Nat
  enumCS : Nat
  profile : Bytes
  deriving DecidableEq, Repr

/-- `MJ2CreateColorSpecificationAtom`: MJ2ColorSpecificationAtom.c 131-154. -/
def newColr : Colr := ⟨1, 0, 0, 0, []⟩

/-- `calculateSize`: MJ2ColorSpecificationAtom.c 74-97. -/
def Colr.size (x : Colr) : Nat :=
  if x.method = 1 then 8 + 3 + 4 else if x.method = 2 then w32(8 + 3 + x.profile.length) else 8 + 3

/-- `serialize`: MJ2ColorSpecificationAtom.c 43-72. -/
def Colr.serialize (x : Colr) : W :=
  serBase x.size typeColr ;; put8 x.method ;; put8 x.precedence ;; put8 x.approx ;;
  (if x.method = 1 then put32 x.enumCS else if x.method = 2 then putBytes x.profile else W.skip) ;; W.assertFull

/-- `createFromInputStream`: MJ2ColorSpecificationAtom.c 99-129. -/
def Colr.parse (h : Hdr) : P Colr := do
  let method ← get8
  let precedence ← get8
  let approx ← get8
  if method = 1 then do
    let enumCS ← get32
    pure ⟨method, precedence, approx, enumCS, []⟩
  else if method = 2 then do
    let br ← P.bytesRead
    let profile ← getBytes w32(h.size + 4294967296 - br)
    pure ⟨method, precedence, approx, 0, profile⟩
  else pure ⟨method, precedence, approx, 0, []⟩

/-! ## H.263 -/

def typeD263 : Nat := 0x64323633

/-- `MP4H263SpecificInfoAtom`: MP4Atoms.h 1060-1070. -/
structure H263 (α : Type) where
  vendor : Nat
  decoderVersion : Nat
  level : Nat
  profile : Nat
  kids : List α
  deriving DecidableEq, Repr

variable {α : Type}

/-- `calculateSize`: H263SpecificInfoAtom.c 82-96. -/
def H263.size (C : Class α) (x : H263 α) : Nat := listSize C (8 + (4 + 3 * 1)) x.kids

/-- `serialize`: H263SpecificInfoAtom.c 60-80. -/
def H263.serialize (C : Class α) (x : H263 α) : W :=
  serBase (x.size C) typeD263 ;; put32 x.vendor ;; put8 x.decoderVersion ;; put8 x.level ;; put8 x.profile ;;
  serList C x.kids ;; W.assertFull

/-- `createFromInputStream`: H263SpecificInfoAtom.c 98-127. Unlike in other boxes, free space is kept. -/
def H263.parse (C : Class α) (h : Hdr) : P (H263 α) := do
  let vendor ← get32
  let decoderVersion ← get8
  let level ← get8
  let profile ← get8
  let kids ← whileBytes (getAtom C.parse) (fun l c => l ++ [c]) [] h.size
  let br ← P.bytesRead
  if br ≠ h.size then P.fail .badData else pure ⟨vendor, decoderVersion, level, profile, kids⟩

/-! ## Stereo video -/

def typeStvi : Nat := 0x73747669

/-- `MP4StereoVideoAtom`: MP4Atoms.h 1676-1691. `kids` are the boxes that were added (`addAtom`, StereoVideoAtom.c 54-68), each with
its `size` field as it is and its `serialize` function. -/
structure Stvi where
  reserved : Nat
  single : Nat
  scheme : Nat
  length : Nat
  types : List Nat
  kids : List (Nat × W)

/-- `calculateSize`: StereoVideoAtom.c 108-123. The boxes are not counted, nor is their size computed. -/
def Stvi.size (x : Stvi) : Nat := w32(12 + (3 * 4 + x.length))

/-- `serialize`: StereoVideoAtom.c 70-106. -/
def Stvi.serialize (version flags : Nat) (x : Stvi) : W :=
  if x.size > 0 then
    serFull x.size typeStvi version flags ;; put32 w32(x.reserved * 4 + x.single) ;; put32 x.scheme ;; put32 x.length ;;
    putSizes x.length x.types ;; W.each (fun k => nested k.1 k.2) x.kids ;; W.assertFull
  else W.skip

/-- What is read of a stereo video box; no boxes in it. -/
structure Stereo where
  reserved : Nat
  single : Nat
  scheme : Nat
  types : List Nat
  deriving DecidableEq, Repr

/-- The box with the fields that were read. -/
def Stereo.mem (x : Stereo) : Stvi := ⟨x.reserved, x.single, x.scheme, x.types.length, x.types, []⟩

/-- `createFromInputStream`: StereoVideoAtom.c 125-154. The result of reading version and flags is not looked at, but where
they cannot be read neither can the four bytes after them. -/
def Stvi.parse (room : Bool) (h : Hdr) : P ((Nat × Nat) × Stereo) := do
  let vf ← getVersionFlags
  let v ← get32
  let scheme ← get32
  let length ← get32
  let types ← stores room length
  let br ← P.bytesRead
  if br = h.size then pure (vf, ⟨v / 4 % 2 ^ 14, v % 4, scheme, types⟩) else P.bad

end Verif.Jp2
