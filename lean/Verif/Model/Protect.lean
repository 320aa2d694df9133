import Verif.Model.Entries
import Verif.Model.Rows

/-!
# Protected and restricted sample entries

EncAudioSampleEntryAtom.c 152-368 (the functions that EncVisualSampleEntryAtom.c shares), RestrictedVideoSampleEntry.c
154-260 and 300-421, SecurityInfoAtom.c, RestrictedSchemeInfoAtom.c, SchemeInfoAtom.c, ISMASecurity.c,
ISOSampleDescriptions.c 1393-1477. Not modelled: `addSchemeInfoAtom` of RestrictedVideoSampleEntry.c, which nothing calls.

A box of a type that does not matter here is of a class given as a parameter, as in Model/Entries. A `char *` that the
caller gives is the text before its NUL.
-/

namespace Verif.Prot

open Verif.Str (Schm ikmsSize ikmsSerialize ikmsParse cstr)
open Verif.Rows (ISFM)
open Verif.Ent

variable {α φ : Type}

def tFrma : Nat := fcc 'f' 'r' 'm' 'a'
def tSchm : Nat := fcc 's' 'c' 'h' 'm'
def tSchi : Nat := fcc 's' 'c' 'h' 'i'
def tKms : Nat := fcc 'i' 'K' 'M' 'S'
def tSfm : Nat := fcc 'i' 'S' 'F' 'M'
def tSlt : Nat := fcc 'i' 'S' 'L' 'T'
def tEnca : Nat := fcc 'e' 'n' 'c' 'a'
def tEncv : Nat := fcc 'e' 'n' 'c' 'v'
def tResv : Nat := fcc 'r' 'e' 's' 'v'
def tRinf : Nat := fcc 'r' 'i' 'n' 'f'
/-- `ISMACryptAESCounterType`: MP4Atoms.h 184. -/
def tAes : Nat := fcc 'i' 'A' 'E' 'C'

/-! ## Scheme information -/

/-- A box in the scheme information box. -/
inductive Info (α : Type) where
  | kms (vf : Nat × Nat) (url : Option Bytes)
  | sfm (vf : Nat × Nat) (x : ISFM)
  | slt (salt : Nat)
  | other (type : Nat) (x : α)

/-- The field `type`. -/
def Info.type : Info α → Nat
  | .kms _ _ => tKms
  | .sfm _ _ => tSfm
  | .slt _ => tSlt
  | .other t _ => t

/-- The classes of ISMAKMSAtom.c, ISMASampleFormatAtom.c, ISMASaltAtom.c, and of other boxes. -/
def info (C : Class α) : Class (Info α) where
  parse h :=
    if h.type = tKms then P.as (fun v => .kms v.1 v.2) (ikmsParse h)
    else if h.type = tSfm then P.as (fun v => .sfm v.1 v.2) (ISFM.parse h)
    else if h.type = tSlt then P.as .slt (Rows.isltParse h)
    else P.as (.other h.type) (C.parse h)
  size
    | .kms _ none => ikmsSize []
    | .kms _ (some b) => ikmsSize ((cstr b).getD [])
    | .sfm _ _ => w32(12 + 3)
    | .slt _ => w32(8 + 8)
    | .other _ x => C.size x
  ser
    | .kms vf url => ikmsSerialize vf.1 vf.2 url
    | .sfm vf x => x.serialize vf.1 vf.2
    | .slt n => Rows.isltSerialize n
    | .other _ x => C.ser x

/-- SchemeInfoAtom.c 48-101. -/
def schi (C : Class α) : Class (List (Info α)) where
  parse h := addAll (info C) (fun l _ c => .ok (l ++ [c])) [] h.size
  size l := listSize (info C) 8 l
  ser l := serBase (listSize (info C) 8 l) tSchi ;; serList (info C) l ;; W.assertFull

/-! ## Protection -/

/-- A box in a protection or restriction box. -/
inductive Part (α : Type) where
  | frma (format : Nat)
  | schm (vf : Nat × Nat) (x : Schm)
  | schi (l : List (Info α))
  | other (type : Nat) (x : α)

/-- `calculateSize` of SchemeTypeAtom.c 74-94. -/
def schmSize (x : Schm) : Nat :=
  match x.written with
  | some (some s) => w32(w32(12 + 8) + w32(1 + s.length))
  | _ => w32(12 + 8)

/-- The classes of OriginalFormatAtom.c, SchemeTypeAtom.c, SchemeInfoAtom.c, and of other boxes. -/
def part (C : Class α) : Class (Part α) where
  parse h :=
    if h.type = tFrma then P.as .frma (Rows.frmaParse h)
    else if h.type = tSchm then P.as (fun v => .schm v.1 v.2) (Schm.parse h)
    else if h.type = tSchi then P.as .schi ((schi C).parse h)
    else P.as (.other h.type) (C.parse h)
  size
    | .frma _ => w32(8 + 4)
    | .schm _ x => schmSize x
    | .schi l => (schi C).size l
    | .other _ x => C.size x
  ser
    | .frma n => Rows.frmaSerialize n
    | .schm vf x => x.serialize tSchm vf.1
    | .schi l => (schi C).ser l
    | .other _ x => C.ser x

/-- `MP4SecurityInfoAtom`. -/
structure Sinf (α : Type) where
  frma : Option Nat
  schm : Option ((Nat × Nat) × Schm)
  schi : Option (List (Info α))

/-- The fields that are set, in the order of `SERIALIZE_ATOM` in SecurityInfoAtom.c 67-69. -/
def Sinf.parts (x : Sinf α) : List (Part α) :=
  (x.frma.map Part.frma).toList ++ ((x.schm.map fun v => Part.schm v.1 v.2).toList ++ (x.schi.map Part.schi).toList)

/-- `addAtom`: SecurityInfoAtom.c 96-119. -/
def Sinf.add (acc : Sinf α) (_ : Nat) : Part α → Res (Sinf α)
  | .frma n => if acc.frma.isSome then .err .badData else .ok { acc with frma := some n }
  | .schm vf x => if acc.schm.isSome then .err .badData else .ok { acc with schm := some (vf, x) }
  | .schi l => if acc.schi.isSome then .err .badData else .ok { acc with schi := some l }
  | .other _ _ => .err .invalidMedia

/-- SecurityInfoAtom.c 55-126. -/
def sinf (C : Class α) : Class (Sinf α) where
  parse h := addAll (part C) Sinf.add ⟨none, none, none⟩ h.size
  size x := listSize (part C) 8 x.parts
  ser x := serBase (listSize (part C) 8 x.parts) typeSinf ;; serList (part C) x.parts ;; W.assertFull

/-- A box in a protected entry. -/
inductive Bx (α : Type) where
  | sinf (x : Sinf α)
  | other (x : α)

/-- The class of SecurityInfoAtom.c, and of other boxes. -/
def boxes (C : Class α) : Class (Bx α) where
  parse h := if h.type = typeSinf then P.as .sinf ((sinf C).parse h) else P.as .other (C.parse h)
  size
    | .sinf x => (sinf C).size x
    | .other x => C.size x
  ser
    | .sinf x => (sinf C).ser x
    | .other x => C.ser x

/-- `sinf = (MP4SecurityInfoAtomPtr)self->SecurityInfo; if(!sinf)`. Only boxes of the type `sinf` are stored in the
field. -/
def getSinf (e : EncEntry φ (Bx α)) : Res (Sinf α) :=
  match e.sinf with
  | none => .err .badParam
  | some (.sinf s) => .ok s
  | some (.other _) => .ub

/-- EncAudioSampleEntryAtom.c 152-207. `enc` is `enc_type`. -/
def transform (enc scheme version : Nat) (url : Option Bytes) (e : EncEntry φ (Bx α)) : EncEntry φ (Bx α) :=
  { e with
    type := enc
    sinf := some (.sinf ⟨some e.type, some ((0, 0), ⟨scheme, version, url.map (· ++ [0])⟩), some []⟩) }

/-- EncAudioSampleEntryAtom.c 209-242. -/
def untransform (e : EncEntry φ (Bx α)) : Res (EncEntry φ (Bx α)) := do
  let s ← getSinf e
  match s.frma with
  | none => .err .badData
  | some n => .ok { e with type := n, sinf := none }

/-- EncAudioSampleEntryAtom.c 244-274. -/
def addInfo (e : EncEntry φ (Bx α)) (x : Info α) : Res (EncEntry φ (Bx α)) := do
  let s ← getSinf e
  match s.schi with
  | none => .err .badData
  | some l => .ok { e with sinf := some (.sinf { s with schi := some (l ++ [x]) }) }

/-- EncAudioSampleEntryAtom.c 276-326. The error of line 299 is replaced by the result of `MP4GetListEntryCount`, so
no box of the type is a NULL pointer and no error. -/
def getInfo (e : EncEntry φ (Bx α)) (type : Nat) : Res (Option (Info α)) := do
  let s ← getSinf e
  match s.schi with
  | none => .err .badData
  | some l => .ok (l.find? fun x => x.type = type)

/-- A copy of a C string: `strlen` needs a NUL. -/
def copyStr : Option Bytes → Res Bytes
  | none => .ub
  | some b => match cstr b with
    | none => .ub
    | some s => .ok s

/-- EncAudioSampleEntryAtom.c 328-368; `want` is whether `sch_url` is not NULL. -/
def getScheme (e : EncEntry φ (Bx α)) (want : Bool) : Res (Nat × Nat × Option Bytes) := do
  let s ← getSinf e
  match s.schm with
  | none => .err .badData
  | some (_, x) =>
    if want then
      let u ← copyStr x.url
      .ok (x.scheme, x.schemeVersion, some u)
    else .ok (x.scheme, x.schemeVersion, none)

/-! ## ISMA -/

/-- `"http://www.isma.tv"`: ISMASecurity.c 107. -/
def isma : Bytes := "http://www.isma.tv".toList.map fun c => UInt8.ofNat c.toNat

/-- ISMASecurity.c 81-129 for one class of entries. -/
def protect (K : Class (EncEntry φ (Bx α))) (enc : Nat) (input : Bytes) (x : ISFM) (url : Option Bytes) (salt : Nat) :
    Res Bytes :=
  match parseAtom K.parse input with
  | .err e => .err e
  | .ub => .ub
  | .ok (e, _, _) => do
    let e ← addInfo (transform enc tAes 1 (some isma) e) (.kms (0, 0) (url.map (· ++ [0])))
    let e ← addInfo e (.sfm (0, 0) x)
    let e ← (if salt ≠ 0 then addInfo e (.slt salt) else .ok e)
    runW (K.size e) (K.ser e)

/-- ISMASecurity.c 44-147: `ISMATransformSampleEntrySalt`. -/
def transformEntry (C : Class α) (flags : Nat) (input : Bytes) (x : ISFM) (url : Option Bytes) (salt : Nat) :
    Res Bytes :=
  if flags / 2 % 2 = 1 then protect (encVisual (boxes C)) tEncv input x url salt
  else if flags / 4 % 2 = 1 then protect (encAudio (boxes C)) tEnca input x url salt
  else .err .notImplemented

/-- What `ISMAUnTransformSampleEntrySalt` returns. -/
structure Back where
  format : ISFM
  url : Option Bytes
  salt : Nat
  entry : Bytes
  deriving DecidableEq, Repr

/-- ISMASecurity.c 186-239; `want` is whether `kms_URL` is not NULL. A NULL pointer is dereferenced when the box with
the address or the format is not found. -/
def unprotect (K : Class (EncEntry φ (Bx α))) (input : Bytes) (want : Bool) : Res Back :=
  match parseAtom K.parse input with
  | .err e => .err e
  | .ub => .ub
  | .ok (e, _, _) => do
    let v ← getScheme e false
    if v.1 ≠ tAes ∨ v.2.1 ≠ 1 then .err .notImplemented else
    let k ← getInfo e tKms
    let url ← (if want then match k with
        | some (.kms _ u) => (copyStr u).bind fun s => .ok (some s)
        | _ => .ub
      else .ok none)
    let t ← getInfo e tSlt
    let salt := match t with
      | some (.slt n) => n
      | _ => 0
    let f ← getInfo e tSfm
    match f with
    | some (.sfm _ x) => do
      let e ← untransform e
      let out ← runW (K.size e) (K.ser e)
      .ok ⟨x, url, salt, out⟩
    | _ => .ub

/-- ISMASecurity.c 159-252: `ISMAUnTransformSampleEntrySalt`. `D` has the classes of all other boxes. -/
def untransformEntry {β : Type} (C : Class α) (D : Class β) (input : Bytes) (want : Bool) : Res Back :=
  match parseHeader input with
  | .err e => .err e
  | .ub => .ub
  | .ok (h, _) =>
    if h.type = tEnca then unprotect (encAudio (boxes C)) input want
    else if h.type = tEncv then unprotect (encVisual (boxes C)) input want
    else match parseAtom D.parse input with
      | .err e => .err e
      | .ub => .ub
      | .ok _ => .err .notImplemented

/-! ## Restricted entries -/

/-- `MP4RestrictedSchemeInfoAtom`: the list, and the boxes to which the fields point. -/
structure Rinf (α : Type) where
  list : List (Part α)
  frma : Option Nat
  schm : Option ((Nat × Nat) × Schm)
  schi : Option (List (Info α))

/-- `addAtom`: RestrictedSchemeInfoAtom.c 118-142. -/
def Rinf.add (acc : Rinf α) (_ : Nat) (c : Part α) : Res (Rinf α) :=
  match c with
  | .frma n => if acc.frma.isSome then .err .badData else .ok { acc with list := acc.list ++ [c], frma := some n }
  | .schm vf x => if acc.schm.isSome then .err .badData else .ok { acc with list := acc.list ++ [c], schm := some (vf, x) }
  | .schi l => if acc.schi.isSome then .err .badData else .ok { acc with list := acc.list ++ [c], schi := some l }
  | .other _ _ => .ok { acc with list := acc.list ++ [c] }

/-- RestrictedSchemeInfoAtom.c 70-151. -/
def rinf (C : Class α) : Class (Rinf α) where
  parse h := addAll (part C) Rinf.add ⟨[], none, none, none⟩ h.size
  size x := listSize (part C) 8 x.list
  ser x := serBase (listSize (part C) 8 x.list) tRinf ;; serList (part C) x.list ;; W.assertFull

/-- A box in a restricted entry. -/
inductive Rx (α : Type) where
  | rinf (x : Rinf α)
  | other (x : α)

/-- The class of RestrictedSchemeInfoAtom.c, and of other boxes. -/
def rboxes (C : Class α) : Class (Rx α) where
  parse h := if h.type = tRinf then P.as .rinf ((rinf C).parse h) else P.as .other (C.parse h)
  size
    | .rinf x => (rinf C).size x
    | .other x => C.size x
  ser
    | .rinf x => (rinf C).ser x
    | .other x => C.ser x

def Rx.isRinf : Rx α → Bool
  | .rinf _ => true
  | .other _ => false

/-- RestrictedVideoSampleEntry.c 154-210: `restriction_type` is `resv`. -/
def rTransform (scheme version : Nat) (url : Option Bytes) (e : Entry Video (Rx α)) : Entry Video (Rx α) :=
  let schm := ((0, 0), (⟨scheme, version, url.map (· ++ [0])⟩ : Schm))
  { e with
    type := tResv
    ext := e.ext ++ [.rinf ⟨[.frma e.type, .schm schm.1 schm.2, .schi []], some e.type, some schm, some []⟩] }

/-- RestrictedVideoSampleEntry.c 212-260: the first restriction box is removed. -/
def rUntransform (e : Entry Video (Rx α)) : Res (Entry Video (Rx α)) :=
  match e.ext.find? Rx.isRinf with
  | some (.rinf x) => match x.frma with
    | none => .err .badData
    | some n => .ok { e with type := n, ext := e.ext.eraseIdx (e.ext.findIdx Rx.isRinf) }
  | _ => .err .badParam

/-- `getRinf` (RestrictedVideoSampleEntry.c 347-370) and the test of its result by the callers: without a restriction
box it returns no error and the variable of the caller has no value. -/
def getRinf (e : Entry Video (Rx α)) : Res (Rinf α) :=
  match e.ext.find? Rx.isRinf with
  | some (.rinf x) => .ok x
  | _ => .ub

/-- RestrictedVideoSampleEntry.c 372-421. -/
def rGetScheme (e : Entry Video (Rx α)) (want : Bool) : Res (Nat × Nat × Option Bytes) := do
  let s ← getRinf e
  match s.schm with
  | none => .err .badData
  | some (_, x) =>
    if want then
      let u ← copyStr x.url
      .ok (x.scheme, x.schemeVersion, some u)
    else .ok (x.scheme, x.schemeVersion, none)

/-- The first steps of ISOSampleDescriptions.c 1393-1477: the entry is parsed by its type (`sampleEntryHToAtomPtr`),
which must be `resv`. `D` has the classes of all other entries. -/
def resv {β : Type} (C : Class α) (D : Class β) (input : Bytes) : Res (Entry Video (Rx α)) :=
  match parseHeader input with
  | .err e => .err e
  | .ub => .ub
  | .ok (h, _) =>
    if h.type = tResv then
      match parseAtom (restricted (rboxes C)).parse input with
      | .err e => .err e
      | .ub => .ub
      | .ok (e, _, _) => .ok e
    else match parseAtom D.parse input with
      | .err e => .err e
      | .ub => .ub
      | .ok _ => .err .badParam

/-- ISOSampleDescriptions.c 1393-1424: `ISOGetRESVOriginalFormat`. -/
def resvFormat {β : Type} (C : Class α) (D : Class β) (input : Bytes) : Res Nat := do
  let e ← resv C D input
  let s ← getRinf e
  match s.frma with
  | none => .err .badParam
  | some n => .ok n

/-- ISOSampleDescriptions.c 1426-1443: `ISOGetRESVSchemeType`. -/
def resvScheme {β : Type} (C : Class α) (D : Class β) (input : Bytes) (want : Bool) : Res (Nat × Nat × Option Bytes) := do
  let e ← resv C D input
  rGetScheme e want

/-- RestrictedVideoSampleEntry.c 300-345: as `getInfo`, no box of the type is no error. -/
def rGetInfo (e : Entry Video (Rx α)) (type : Nat) : Res (Option (Info α)) := do
  let s ← getRinf e
  match s.schi with
  | none => .err .badData
  | some l => .ok (l.find? fun x => x.type = type)

/-- ISOSampleDescriptions.c 1445-1477: `ISOGetRESVSchemeInfoAtom` and `atomPtrToSampleEntryH` (113-128), which
dereferences its argument. -/
def resvInfo {β : Type} (C : Class α) (D : Class β) (input : Bytes) (type : Nat) : Res Bytes := do
  let e ← resv C D input
  let found ← rGetInfo e type
  match found with
  | none => .ub
  | some x => runW ((info C).size x) ((info C).ser x)

end Verif.Prot
