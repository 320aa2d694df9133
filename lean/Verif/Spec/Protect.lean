import Verif.Model.Protect
import Verif.Spec.Entries

/-!
# Protected and restricted sample entries: what is on the wire
-/

namespace Verif.Prot

open Verif.Ent
open Verif.Rows (ISFM)

variable {α : Type}

/-- The box `x` is written as `bytes`, of the computed size. -/
structure Writes (C : Class α) (x : α) (bytes : Bytes) : Prop where
  size : C.size x = bytes.length
  write : runW (C.size x) (C.ser x) = .ok bytes

/-- The text of a string of ASCII characters. -/
def ascii (s : String) : Bytes := s.toList.map fun c => UInt8.ofNat c.toNat

/-- No NUL. -/
def Plain (s : Bytes) : Prop := ∀ b ∈ s, b ≠ 0

/-- ISO/IEC 14496-12, 8.12.5: the scheme, its version and, with the flag 1, the address of a page on it. -/
def schemeWire (scheme version : Nat) (url : Bytes) : Bytes :=
  if url = [] then fullBox (fcc 's' 'c' 'h' 'm') 0 0 (be 4 scheme ++ be 4 version)
  else fullBox (fcc 's' 'c' 'h' 'm') 0 1 (be 4 scheme ++ (be 4 version ++ (url ++ [0])))

/-- ISO/IEC 14496-12, 8.12.2 `frma`, 8.12.5 `schm` and 8.12.6 `schi`. -/
def partsWire (format scheme version : Nat) (url infos : Bytes) : Bytes :=
  box (fcc 'f' 'r' 'm' 'a') (be 4 format) ++ (schemeWire scheme version url ++ box (fcc 's' 'c' 'h' 'i') infos)

/-- ISO/IEC 14496-12, 8.12.1: the protection scheme information box. -/
def sinfWire (format scheme version : Nat) (url infos : Bytes) : Bytes :=
  box (fcc 's' 'i' 'n' 'f') (partsWire format scheme version url infos)

/-- ISMACryp 1.1: the address of the key management system, the format of the samples and, when it is not 0, the
salt. -/
def ismaWire (x : ISFM) (url : Bytes) (salt : Nat) : Bytes :=
  fullBox (fcc 'i' 'K' 'M' 'S') 0 0 (url ++ [0]) ++
    (fullBox (fcc 'i' 'S' 'F' 'M') 0 0 (be 1 x.selective ++ (be 1 x.keyLen ++ be 1 x.ivLen)) ++
      if salt = 0 then [] else box (fcc 'i' 'S' 'L' 'T') (be 8 salt))

/-- An entry in the clear: the common head, the fields of its kind, its boxes. -/
def clear (type : Nat) (reserved : Bytes) (dref : Nat) (w : Bytes) (ks : List (Kid α)) : Bytes :=
  box type (headWire reserved dref ++ (w ++ wire ks))

/-- The same with a protection box after the others. -/
def locked (type : Nat) (reserved : Bytes) (dref : Nat) (w : Bytes) (ks : List (Kid α)) (sinf : Bytes) : Bytes :=
  box type (headWire reserved dref ++ (w ++ (wire ks ++ sinf)))

/-- The protection box of ISMACryp 1.1: scheme `iAEC`, version 1. -/
def ismaSinf (format : Nat) (x : ISFM) (url : Bytes) (salt : Nat) : Bytes :=
  sinfWire format (fcc 'i' 'A' 'E' 'C') 1 (ascii "http://www.isma.tv") (ismaWire x url salt)

structure FormatFits (x : ISFM) : Prop where
  selective : x.selective < 256
  keyLen : x.keyLen < 256
  ivLen : x.ivLen < 256

/-- What must hold of the numbers and the address of a scheme. -/
structure SchemeFits (format scheme version : Nat) (url : Bytes) : Prop where
  format : format < 4294967296
  scheme : scheme < 4294967296
  version : version < 4294967296
  text : Plain url

/-- The first of the boxes that has a type. -/
def first {γ : Type} (type : Nat) (ks : List (Kid γ)) : Option γ := (ks.find? fun k => k.type = type).map (·.val)

/-- ISO/IEC 14496-12, 8.15.3: the restricted scheme information box. -/
def rinfWire (format scheme version : Nat) (url infos : Bytes) : Bytes :=
  box (fcc 'r' 'i' 'n' 'f') (partsWire format scheme version url infos)

/-- The fields of a protected entry of one of the two kinds. -/
inductive Fields : Nat → Bytes → Prop
  | video (f : Video) : f.Fits → Fields (fcc 'e' 'n' 'c' 'v') f.wire
  | audio (f : Audio) : f.Fits → Fields (fcc 'e' 'n' 'c' 'a') f.wire

/-- The name of a box that the standard puts in a protection box. -/
def known : Part α → Option Nat
  | .frma _ => some (fcc 'f' 'r' 'm' 'a')
  | .schm _ _ => some (fcc 's' 'c' 'h' 'm')
  | .schi _ => some (fcc 's' 'c' 'h' 'i')
  | .other _ _ => none

/-- The boxes of a protection box: each of a known type, no type twice. -/
def Proper (ps : List (Part α)) : Prop := (∀ p ∈ ps, known p ≠ none) ∧ (ps.map known).Nodup

end Verif.Prot
