import Verif.Model.Headers
import Verif.Model.Rows
import Verif.Model.Strings

/-!
# Attributes of a media

MP4Media.c 386-619, MediaAtom.c 89-121, 123-170, 487-498, MediaInformationAtom.c 67-96, 280-326. The boxes are those of Model/Headers,
Model/Rows and Model/Strings. Parameters are not NULL. The media has a handler and media information. `hdlr` is its type only; its
box is in C69. The boxes of 'mdia' and 'minf' that are not about these attributes are left out.
-/

namespace Verif.Attr

open Verif.Headers Verif.Rows Verif.Str

def typeVide : Nat := 0x76696465
def typeSoun : Nat := 0x736f756e

/-- The media header in the media information; `other` is one that is not for video or sound, which no function here looks at. -/
inductive Head
  | vmhd (x : Vmhd)
  | smhd (x : Smhd)
  | other
  deriving DecidableEq, Repr

/-- `tag` is the box of `extendedLanguageTag`; `tags` are all boxes of its type in `atomList`, the first being that of `tag`. -/
structure Media where
  handler : Nat
  mdhd : Option Mdhd
  head : Option Head
  tag : Option Bytes
  tags : List Bytes
  deriving DecidableEq, Repr

/-- `setupNew` and `setupNewMedia`: MediaAtom.c 123-170, MediaInformationAtom.c 299-330; `calloc` gives fields of 0. -/
def new (handler timeScale now : Nat) : Media where
  handler := handler
  mdhd := some ⟨0, 0, now, now, timeScale, 0, 21956, 0⟩
  head := some (if handler = typeVide then .vmhd ⟨0, 0, 0, 0⟩ else if handler = typeSoun then .smhd ⟨0, 0⟩ else .other)
  tag := none
  tags := []

/-- `MP4SetMediaLanguage`: MP4Media.c 386-414. -/
def setLang (m : Media) (a b c : Nat) : Res Media :=
  match m.mdhd with
  | none => .err .invalidMedia
  | some h => (setLanguage a b c).bind fun l => .ok { m with mdhd := some { h with language := l } }

/-- `MP4GetMediaLanguage`: MP4Media.c 440-464. -/
def getLang (m : Media) : Res (Nat × Nat × Nat) :=
  match m.mdhd with
  | none => .err .invalidMedia
  | some h => .ok (getLanguage h.language)

/-- `addAtom` for the language box: MediaAtom.c 95-107. The box is in the list before there can be an error. -/
def addTag (m : Media) (b : Bytes) : Media × Option Err :=
  match m.tag with
  | some _ => ({ m with tags := m.tags ++ [b] }, some .badData)
  | none => ({ m with tags := m.tags ++ [b], tag := some b }, none)

/-- `MP4SetMediaExtendedLanguageTag`: MP4Media.c 416-438, for a string with its NUL left out. The result of adding is not
looked at. -/
def setTag (m : Media) (s : Bytes) : Media × Option Err := ((addTag m (s ++ [0])).1, none)

/-- `MP4GetMediaExtendedLanguageTag`: MP4Media.c 467-492. -/
def getTag (m : Media) : Res (Option Bytes) :=
  match m.tag with
  | none => .ok none
  | some b => match cstr b with
    | none => .ub
    | some s => .ok (some s)

/-- `MJ2SetMediaGraphicsMode`: MP4Media.c 494-526. A header of another type is read as one of this type. -/
def setMode (m : Media) (mode r g b : Nat) : Res Media :=
  if m.handler ≠ typeVide then .err .notImplemented
  else match m.head with
    | none => .err .invalidMedia
    | some (.vmhd _) => .ok { m with head := some (.vmhd ⟨mode, r, g, b⟩) }
    | some _ => .ub

/-- `MJ2GetMediaGraphicsMode`: MP4Media.c 528-559. -/
def getMode (m : Media) : Res (Nat × Nat × Nat × Nat) :=
  if m.handler ≠ typeVide then .err .notImplemented
  else match m.head with
    | none => .err .invalidMedia
    | some (.vmhd x) => .ok (x.mode, w16(x.red), w16(x.green), w16(x.blue))
    | some _ => .ub

/-- `MJ2SetMediaSoundBalance`: MP4Media.c 561-589, for a value of `s16`. -/
def setBalance (m : Media) (v : Int) : Res Media :=
  if m.handler ≠ typeSoun then .err .notImplemented
  else match m.head with
    | none => .err .invalidMedia
    | some (.smhd x) => .ok { m with head := some (.smhd { x with balance := u32i v }) }
    | some _ => .ub

/-- `MJ2GetMediaSoundBalance`: MP4Media.c 591-619. -/
def getBalance (m : Media) : Res Int :=
  if m.handler ≠ typeSoun then .err .notImplemented
  else match m.head with
    | none => .err .invalidMedia
    | some (.smhd x) => .ok (if w16(x.balance) < 32768 then (w16(x.balance) : Nat) else ((w16(x.balance) : Nat) : Int) - 65536)
    | some _ => .ub

/-! ## Files -/

def writeHead : Option Head → Res (List (Nat × Bytes))
  | some (.vmhd x) => (runW 20 (x.serialize 0 1)).bind fun b => .ok [(typeVmhd, b)]
  | some (.smhd x) => (runW 16 (x.serialize 0 0)).bind fun b => .ok [(typeSmhd, b)]
  | _ => .ok []

def writeTags : List Bytes → Res (List (Nat × Bytes))
  | [] => .ok []
  | t :: l => match cstr t with
    | none => .ub
    | some s => do
      let b ← runW (elngSize s) (elngSerialize 0 0 (some t))
      let r ← writeTags l
      .ok ((typeElng, b) :: r)

/-- The boxes with their types, in the order of the lists. Those of 'minf' come in its place: MediaAtom.c 500-515. -/
def write (m : Media) : Res (List (Nat × Bytes)) := do
  let a ← match m.mdhd with
    | none => Res.ok []
    | some h => (runW (mdhdSize h) (mdhdSerialize h)).bind fun b => .ok [(typeMdhd, b)]
  let b ← writeHead m.head
  let c ← writeTags m.tags
  .ok (a ++ b ++ c)

def setHead (m : Media) (x : Head) : Res Media :=
  match m.head with
  | some _ => .err .badData
  | none => .ok { m with head := some x }

/-- Reading a box and `addAtom`: MediaAtom.c 89-121, MediaInformationAtom.c 67-96. -/
def readBox (m : Media) (b : Nat × Bytes) : Res Media :=
  if b.1 = typeMdhd then
    (parseAtom mdhdParse b.2).bind fun r => match m.mdhd with
      | some _ => .err .badData
      | none => .ok { m with mdhd := some r.1 }
  else if b.1 = typeVmhd then (parseAtom Vmhd.parse b.2).bind fun r => setHead m (.vmhd r.1.2)
  else if b.1 = typeSmhd then (parseAtom Smhd.parse b.2).bind fun r => setHead m (.smhd r.1.2)
  else if b.1 = typeElng then
    (parseAtom elngParse b.2).bind fun r => match r.1.2 with
      | none => .ub
      | some s => match addTag m s with
        | (m, none) => .ok m
        | (_, some e) => .err e
  else .ok m

def readAll (m : Media) : List (Nat × Bytes) → Res Media
  | [] => .ok m
  | b :: l => (readBox m b).bind fun m => readAll m l

/-- The media of a file, its handler having been read. -/
def read (handler : Nat) (bs : List (Nat × Bytes)) : Res Media := readAll ⟨handler, none, none, none, []⟩ bs

end Verif.Attr
