import Verif.Core.Box

/-!
# Boxes that end with a string

CopyrightAtom.c, ExtendedLanguageTag.c, ISMAKMSAtom.c, SchemeTypeAtom.c, CompatibleSchemeTypeAtom.c,
HandlerAtom.c, DataEntryURLAtom.c, DataEntryURNAtom.c, DataReferenceAtom.c, and the data references of a media
(MP4Media.c 1150-1330).

A `char *` that the library allocated is a buffer of exactly the bytes that were allocated, `none` is NULL.
`strlen`, `%s` and `strcpy` of a buffer with no NUL byte read past its end: undefined behaviour, and so is
`strlen(NULL)`. An allocation of no bytes is taken to succeed.
-/

namespace Verif.Str

abbrev VF := Nat × Nat

/-- The string that `strlen` and `%s` see: the bytes before the first NUL. -/
def cstr : Bytes → Option Bytes
  | [] => none
  | b :: bs => if b = 0 then some [] else (cstr bs).map (b :: ·)

/-- The same for a pointer. -/
def cstrPtr : Option Bytes → Option Bytes
  | none => none
  | some b => cstr b

/-- `(u32)strlen(s) + 1`. -/
def strSize (s : Bytes) : Nat := w32(s.length + 1)

/-- `PUTBYTES(s, (u32)strlen(s) + 1)`. -/
def putStr (s : Bytes) : W := putBytes ((s ++ [0]).take (strSize s))

/-- `self->size - self->bytesRead`, a `u32` (so that `bytesToRead < 0` never holds where `long` has 64 bits). -/
def bytesLeft (h : Hdr) : P Nat := do
  let r ← P.bytesRead
  pure w32(h.size + 4294967296 - r)

/-- `sprintf(debugstr, "…%s…", s)` with room for `room` bytes of the string. -/
def debugStr (room : Nat) (buf : Bytes) : P Unit :=
  match cstr buf with
  | none => P.bad
  | some s => if s.length > room then P.bad else pure ()

/-- `assert(self->bytesRead == self->size)`. -/
def assertRead {α : Type} (h : Hdr) (v : α) : P α := do
  let r ← P.bytesRead
  if r ≠ h.size then P.bad else pure v

/-! ## Copyright, language, key management system -/

def typeCprt : Nat := 0x63707274
structure Cprt where
  lang : Nat
  notice : Option Bytes
  deriving DecidableEq, Repr

/-- CopyrightAtom.c 64-77. -/
def Cprt.calcSize (s : Bytes) : Nat := w32(12 + w32(3 + s.length))

/-- CopyrightAtom.c 44-62. -/
def Cprt.serialize (version flags : Nat) (x : Cprt) : W :=
  match cstrPtr x.notice with
  | none => W.bad
  | some s => serFull (Cprt.calcSize s) typeCprt version flags ;; put16 x.lang ;; putStr s ;; W.assertFull

/-- CopyrightAtom.c 79-102. -/
def Cprt.parse (h : Hdr) : P (VF × Cprt) := do
  let vf ← getVersionFlags
  let lang ← get16
  let n ← bytesLeft h
  if n > 0 then
    let b ← getBytes n
    pure (vf, ⟨lang, some b⟩)
  else pure (vf, ⟨lang, none⟩)

def typeElng : Nat := 0x656c6e67

/-- ExtendedLanguageTag.c 60-75. -/
def elngSize (s : Bytes) : Nat := w32(12 + w32(s.length + 1))

/-- ExtendedLanguageTag.c 43-58. -/
def elngSerialize (version flags : Nat) (tag : Option Bytes) : W :=
  match cstrPtr tag with
  | none => W.bad
  | some s => serFull (elngSize s) typeElng version flags ;; putStr s ;; W.assertFull

/-- ExtendedLanguageTag.c 77-96. -/
def elngParse (h : Hdr) : P (VF × Option Bytes) := do
  let vf ← getVersionFlags
  let n ← bytesLeft h
  let b ← getBytes n
  pure (vf, some b)

def typeIKMS : Nat := 0x694b4d53

/-- ISMAKMSAtom.c 73-86. -/
def ikmsSize (s : Bytes) : Nat := w32(12 + w32(1 + s.length))

/-- ISMAKMSAtom.c 46-71. -/
def ikmsSerialize (version flags : Nat) (url : Option Bytes) : W :=
  match url with
  | none => serFull (ikmsSize []) typeIKMS version flags ;; put8 0 ;; W.assertFull
  | some b => match cstr b with
    | none => W.bad
    | some s => serFull (ikmsSize s) typeIKMS version flags ;; putStr s ;; W.assertFull

/-- ISMAKMSAtom.c 88-113. -/
def ikmsParse (h : Hdr) : P (VF × Option Bytes) := do
  let vf ← getVersionFlags
  let n ← bytesLeft h
  if n > 0 then
    let b ← getBytes n
    pure (vf, some b)
  else pure (vf, none)

/-! ## Schemes -/

def typeSchm : Nat := 0x7363686d
def typeCsch : Nat := 0x63736368

structure Schm where
  scheme : Nat
  schemeVersion : Nat
  url : Option Bytes
  deriving DecidableEq, Repr

/-- The address that is written: `none` for no or an empty string. The outer `none` is undefined behaviour.
SchemeTypeAtom.c 82. -/
def Schm.written (x : Schm) : Option (Option Bytes) :=
  match x.url with
  | none => some none
  | some b => match cstr b with
    | none => none
    | some [] => some none
    | some s => some (some s)

/-- SchemeTypeAtom.c 49-94: `calculateSize` sets the flags; `serialize` follows them.
CompatibleSchemeTypeAtom.c 42-86 is the same code. -/
def Schm.serialize (type version : Nat) (x : Schm) : W :=
  match x.written with
  | none => W.bad
  | some none => serFull w32(12 + 8) type version 0 ;; put32 x.scheme ;; put32 x.schemeVersion ;; W.assertFull
  | some (some s) => serFull w32(w32(12 + 8) + w32(1 + s.length)) type version 1 ;; put32 x.scheme ;;
      put32 x.schemeVersion ;; putStr s ;; W.assertFull

/-- SchemeTypeAtom.c 96-142, CompatibleSchemeTypeAtom.c 88-139. The text has 24 bytes before the string and
two after. -/
def Schm.parse (h : Hdr) : P (VF × Schm) := do
  let vf ← getVersionFlags
  let a ← get32
  let b ← get32
  let n ← bytesLeft h
  if n > 0 then
    if vf.2 % 2 ≠ 1 then P.fail .badData else do
    let u ← getBytes n
    let _ ← (if n < 200 then debugStr 230 u else pure () : P Unit)
    assertRead h (vf, ⟨a, b, some u⟩)
  else
    if vf.2 % 2 ≠ 0 then P.fail .badData else
    assertRead h (vf, ⟨a, b, none⟩)

/-- `self->type` in `MP4CreateSchemeTypeAtom`, SchemeTypeAtom.c 154. -/
def schmCreated : Nat := typeSchm

/-- `self->type` in `MP4CreateCompatibleSchemeTypeAtom`, CompatibleSchemeTypeAtom.c 153. -/
def cschCreated : Nat := typeSchm

/-! ## Handler -/

def typeHdlr : Nat := 0x68646c72

structure Hdlr where
  component : Nat
  handler : Nat
  manufacturer : Nat
  cflags : Nat
  mask : Nat
  /-- `nameUTF8`. -/
  name : Bytes
  nameLength : Nat
  /-- `is_qt`. -/
  qt : Bool
  deriving DecidableEq, Repr

/-- `setName`: HandlerAtom.c 97-121; `s` is a C string. -/
def Hdlr.setName (x : Hdlr) (s : Bytes) (qt : Bool) : Hdlr :=
  { x with name := s ++ [0], nameLength := w32(s.length), qt := qt }

/-- `PUTBYTES(self->nameUTF8, self->nameLength)`: reading past the end of the buffer is undefined. -/
def Hdlr.putName (x : Hdlr) : W :=
  if x.nameLength > x.name.length then W.bad else putBytes (x.name.take x.nameLength)

/-- HandlerAtom.c 82-95. -/
def Hdlr.calcSize (x : Hdlr) : Nat := w32(12 + w32(20 + x.nameLength + 1))

/-- HandlerAtom.c 44-80. -/
def Hdlr.serialize (version flags : Nat) (x : Hdlr) : W :=
  serFull x.calcSize typeHdlr version flags ;;
  put32 (if x.qt then 0x6d686c72 else x.component) ;; put32 x.handler ;;
  put32 (if x.qt then 0x6170706c else x.manufacturer) ;; put32 x.cflags ;; put32 x.mask ;;
  (if x.qt then put8 x.nameLength ;; x.putName else x.putName ;; put8 0) ;;
  W.assertFull

/-- The value of a `char`, which is signed. -/
def schar (b : UInt8) : Int := if b.toNat < 128 then b.toNat else (b.toNat : Int) - 256

/-- `pascaltocstr`, HandlerAtom.c 123-131, of a buffer whose first byte is its length less 1. -/
def pascal (buf : Bytes) : Bytes := buf.tail ++ [0]

/-- HandlerAtom.c 154-172: the name and its length. Reading an element of an empty buffer is undefined. -/
def nameOf (buf : Bytes) : Option (Bytes × Nat) :=
  match buf with
  | [] => none
  | b :: _ =>
    if schar b = (buf.length : Int) - 1 then some (pascal buf, buf.length - 1)
    else if buf.getLast? = some 0 then some (buf, buf.length - 1)
    else some (buf, buf.length)

/-- HandlerAtom.c 133-182. `debugmsg` has 256 bytes, the text has 17 bytes before the name and two after. -/
def Hdlr.parse (h : Hdr) : P (VF × Hdlr) := do
  let vf ← getVersionFlags
  let a ← get32
  let t ← get32
  let m ← get32
  let f ← get32
  let k ← get32
  let n ← bytesLeft h
  let buf ← getBytes n
  match nameOf buf with
  | none => P.bad
  | some (name, len) => do
    let _ ← (if len > 0 then debugStr 237 name else pure () : P Unit)
    pure (vf, ⟨a, t, m, f, k, name, len, false⟩)

/-! ## Data references -/

def typeUrl : Nat := 0x75726c20
def typeUrn : Nat := 0x75726e20
def typeAlis : Nat := 0x616c6973

structure Url where
  location : Option Bytes
  /-- `locationLength`. -/
  len : Nat
  deriving DecidableEq, Repr

/-- The bytes of the location that are written; the outer `none` is undefined behaviour. -/
def Url.written (flags : Nat) (x : Url) : Option (Option Bytes) :=
  if flags % 2 = 0 then
    match x.location with
    | none => some none
    | some b => (cstr b).map some
  else some none

/-- DataEntryURLAtom.c 126-142. -/
def Url.calcSize : Option Bytes → Nat
  | none => 12
  | some s => w32(12 + w32(1 + s.length))

/-- DataEntryURLAtom.c 102-124. -/
def Url.serialize (version flags : Nat) (x : Url) : W :=
  match x.written flags with
  | none => W.bad
  | some none => serFull (Url.calcSize none) typeUrl version flags ;; W.assertFull
  | some (some s) => serFull (Url.calcSize (some s)) typeUrl version flags ;; putStr s ;; W.assertFull

/-- DataEntryURLAtom.c 144-181. MP4Atoms.c 231-233 uses the class for `'alis'` too, whose bytes are read into
an array of 256. -/
def Url.parse (h : Hdr) : P (VF × Url) := do
  let vf ← getVersionFlags
  let n ← bytesLeft h
  if n > 0 then
    if h.type = typeUrl then do
      let b ← getBytes n
      let _ ← (if n < 200 then debugStr 237 b else pure () : P Unit)
      pure (vf, ⟨some b, n⟩)
    else if n > 256 then do
      let _ ← getBytes n
      P.bad
    else do
      let _ ← getBytes n
      pure (vf, ⟨none, 0⟩)
  else pure (vf, ⟨none, 0⟩)

/-- `name` is the field of all boxes that starts as the text "data entry URN"; `nameURN` is the string of the
file. -/
structure Urn where
  name : Option Bytes
  nameURN : Option Bytes
  nameLength : Nat
  location : Option Bytes
  len : Nat
  deriving DecidableEq, Repr

/-- "data entry URN" with its NUL. -/
def urnLabel : Bytes := [100, 97, 116, 97, 32, 101, 110, 116, 114, 121, 32, 85, 82, 78, 0]

/-- DataEntryURNAtom.c 197-221. -/
def Urn.create : Urn := ⟨some urnLabel, none, 0, none, 0⟩

/-- `strlen` of a pointer that may be NULL and is then not written; the outer `none` is undefined. -/
def opt (p : Option Bytes) : Option (Option Bytes) :=
  match p with
  | none => some none
  | some b => (cstr b).map some

def optSize : Option Bytes → Nat
  | none => 0
  | some s => strSize s

def putOpt : Option Bytes → W
  | none => W.skip
  | some s => putStr s

/-- DataEntryURNAtom.c 103-149: `calculateSize` counts the name even if there is no location. -/
def Urn.serialize (version flags : Nat) (x : Urn) : W :=
  if flags % 2 = 0 then
    match opt x.location, opt x.name with
    | some l, some n =>
      serFull w32(w32(12 + optSize l) + optSize n) typeUrn version flags ;;
      (match l with
        | none => W.skip
        | some s => putStr s ;; putOpt n) ;;
      W.assertFull
    | _, _ => W.bad
  else serFull 12 typeUrn version flags ;; W.assertFull

/-- The size of the box, DataEntryURNAtom.c 132-149. -/
def Urn.calcSize (flags : Nat) (l n : Option Bytes) : Nat :=
  if flags % 2 = 0 then w32(w32(12 + optSize l) + optSize n) else 12

/-- The bytes up to the first NUL and those after it. DataEntryURNAtom.c 172-184. -/
def splitNul : Bytes → Option (Bytes × Bytes)
  | [] => none
  | b :: bs => if b = 0 then some ([b], bs) else (splitNul bs).map fun r => (b :: r.1, r.2)

/-- DataEntryURNAtom.c 151-195; the location points into the buffer of the name. -/
def Urn.parse (h : Hdr) : P (VF × Urn) := do
  let vf ← getVersionFlags
  let n ← bytesLeft h
  let b ← getBytes n
  if n > 0 then
    match splitNul b with
    | none => P.fail .badData
    | some (u, l) => pure (vf, ⟨some urnLabel, some b, u.length, some l, n - u.length⟩)
  else pure (vf, ⟨some urnLabel, some [], 0, some [], 0⟩)

/-- An entry of the data references. -/
inductive Entry where
  | url (version flags : Nat) (x : Url)
  | urn (version flags : Nat) (x : Urn)
  deriving DecidableEq, Repr

/-- `MP4AddMediaDataReference`, MP4Media.c 1157-1244 (the same in ISOMeta.c 312-341): the handles are copied
as they are. -/
def newEntry (urlH urnH : Option Bytes) : Entry :=
  match urlH, urnH with
  | none, _ => .url 0 1 ⟨none, 0⟩
  | some u, none => .url 0 0 ⟨some u, u.length⟩
  | some u, some n => .urn 0 0 ⟨some n, none, n.length, some u, u.length⟩

/-- `memcpy` of `n` bytes from a pointer. -/
def copyOut (p : Option Bytes) (n : Nat) : Res Bytes :=
  if n = 0 then .ok [] else
  match p with
  | none => .ub
  | some b => if b.length < n then .ub else .ok (b.take n)

/-- `MP4GetMediaDataReference`, MP4Media.c 1247-1347, called with both handles: what is in `referenceH` and
in `urnH` after it. `urnH` starts with `u0`. -/
def getReference (e : Entry) (u0 : Bytes) : Res (Bytes × Bytes) :=
  match e with
  | .url _ _ x => (copyOut x.location x.len).bind fun r => .ok (r, u0)
  | .urn _ _ x =>
    (copyOut x.location x.len).bind fun _ =>
    (copyOut x.location x.nameLength).bind fun r => .ok (r, u0)

def typeDref : Nat := 0x64726566

/-- An entry has the size of its `calculateSize`. -/
def Entry.size : Entry → Nat
  | .url _ flags x => Url.calcSize ((x.written flags).getD none)
  | .urn _ flags x => Urn.calcSize flags ((opt x.location).getD none) ((opt x.name).getD none)

def Entry.serialize : Entry → W
  | .url version flags x => x.serialize version flags
  | .urn version flags x => x.serialize version flags

/-- DataReferenceAtom.c 150-166. -/
def drefSize (es : List Entry) : Nat := es.foldl (fun n e => w32(n + e.size)) w32(12 + 4)

/-- DataReferenceAtom.c 128-148. -/
def drefSerialize (version flags : Nat) (es : List Entry) : W :=
  serFull (drefSize es) typeDref version flags ;; put32 es.length ;;
  W.each (fun e => nested e.size e.serialize) es ;; W.assertFull

/-- The boxes that may be entries. The class of a box of another type is not modelled: `none`. -/
def entryParse (h : Hdr) : P (Option Entry) := do
  if h.type = typeUrl then
    let (vf, x) ← Url.parse h
    pure (some (.url vf.1 vf.2 x))
  else if h.type = typeUrn then
    let (vf, x) ← Urn.parse h
    pure (some (.urn vf.1 vf.2 x))
  else pure none

/-- DataReferenceAtom.c 181-209. -/
def drefParse (h : Hdr) : P (VF × List (Option Entry)) := do
  let vf ← getVersionFlags
  let n ← get32
  let es ← P.repeat n (getAtom entryParse)
  let r ← P.bytesRead
  if r ≠ h.size then P.fail .badData else pure (vf, es)

/-- DataReferenceAtom.c 54-70. -/
def getEntry (es : List Entry) (i : Nat) : Res Entry :=
  if i < 1 ∨ i > es.length then .err .badParam else
  match es[i - 1]? with
  | none => .ub
  | some e => .ok e

end Verif.Str
