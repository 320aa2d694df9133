import Verif.Model.Entries

/-!
# Boxed metadata: the table of keys and the samples

MetadataKeyTableBox.c, MetadataKeyBox.c, MetadataKeyDeclarationBox.c, MetadataLocaleBox.c, MetadataSetupBox.c,
ISOSampleDescriptions.c 1675-1876, MP4OrdinaryTrackReader.c 132-165.

A handle is the bytes in it, and its block is not larger than that. Memory is always found. A string given by the caller
is the bytes before its NUL. `char` is signed, as on the platforms the library is built for. The stream of an entry in a
handle has its pointer where a file stream has its offset, so that MetadataKeyTableBox.c 172 and 184 save and set
the position of either.
-/

namespace Verif.Meb

open Verif.Str (cstrPtr putStr strSize)
open Verif.Ent

variable {α : Type}

def typeKeyd : Nat := fcc 'k' 'e' 'y' 'd'
def typeLoca : Nat := fcc 'l' 'o' 'c' 'a'
def typeSetu : Nat := fcc 's' 'e' 't' 'u'
def typeMebx : Nat := fcc 'm' 'e' 'b' 'x'

/-- `MP4KeyNamespace_uiso`, `MP4KeyNamespace_me4c`: MP4Movies.h 88-89. -/
def uiso : Nat := fcc 'u' 'i' 's' 'o'
def me4c : Nat := fcc 'm' 'e' '4' 'c'

/-- The namespaces with keys of four bytes. -/
def four (ns : Nat) : Prop := ns = me4c ∨ ns = uiso

instance (ns : Nat) : Decidable (four ns) := inferInstanceAs (Decidable (_ ∨ _))

/-- `bytesToRead = (long)self->size - self->bytesRead; if(bytesToRead < 0)`, with 64 bits. -/
def bytesToRead (h : Hdr) : P Nat := do
  let r ← P.bytesRead
  if h.size < r then P.fail .badData else pure (h.size - r)

/-! ## Declaration, locale, setup -/

/-- `MP4MetadataKeyDeclarationBox`: MP4Atoms.h 915-920. The handle is never NULL. -/
structure Keyd where
  ns : Nat
  value : Bytes
  deriving DecidableEq, Repr

/-- MetadataKeyDeclarationBox.c 73-94. -/
def Keyd.size (x : Keyd) : Nat := w32(8 + 4 + x.value.length)

/-- MetadataKeyDeclarationBox.c 39-71. -/
def Keyd.serialize (x : Keyd) : W :=
  serBase x.size typeKeyd ;; put32 x.ns ;;
  (if x.value.length ≠ 4 ∧ four x.ns then W.fail .badData else putBytes x.value) ;; W.assertFull

/-- MetadataKeyDeclarationBox.c 96-126. -/
def Keyd.parse (h : Hdr) : P Keyd := do
  let ns ← get32
  let n ← bytesToRead h
  let v ← getBytes n
  pure ⟨ns, v⟩

/-- MetadataKeyDeclarationBox.c 128-170: `MP4CreateMetadataKeyDeclarationBox` with a value. -/
def newKeyd (ns : Nat) (v : Bytes) : Res Keyd :=
  if v.length ≠ 4 ∧ four ns then .err .badParam
  else if v.length = 0 then .err .badParam
  else .ok ⟨ns, v⟩

/-- MetadataLocaleBox.c 54-71; the argument is `locale_string`. -/
def locaSize (s : Option Bytes) : Nat :=
  match cstrPtr s with
  | some t => if t.length > 0 then w32(8 + strSize t) else 8
  | none => 8

/-- MetadataLocaleBox.c 35-52. `strlen` needs a string. -/
def locaSerialize (s : Option Bytes) : W :=
  serBase (locaSize s) typeLoca ;; (match cstrPtr s with | none => W.bad | some t => putStr t) ;; W.assertFull

/-- MetadataLocaleBox.c 73-98. -/
def locaParse (h : Hdr) : P (Option Bytes) := do
  let n ← bytesToRead h
  if n > 0 then
    let b ← getBytes n
    pure (some b)
  else pure none

/-- MetadataSetupBox.c 64-84. -/
def setuSize (d : Bytes) : Nat := w32(8 + d.length)

/-- MetadataSetupBox.c 39-62. -/
def setuSerialize (d : Bytes) : W := serBase (setuSize d) typeSetu ;; putBytes d ;; W.assertFull

/-- MetadataSetupBox.c 86-114. -/
def setuParse (h : Hdr) : P Bytes := do
  let n ← bytesToRead h
  getBytes n

/-- A box in a key box. -/
inductive Sub (α : Type) where
  | keyd (x : Keyd)
  | loca (s : Option Bytes)
  | setu (d : Bytes)
  | other (x : α)

/-- The classes found by `MP4CreateAtom`: MP4Atoms.c 645-656. -/
def sub (C : Class α) : Class (Sub α) where
  parse h :=
    if h.type = typeKeyd then P.as .keyd (Keyd.parse h)
    else if h.type = typeLoca then P.as .loca (locaParse h)
    else if h.type = typeSetu then P.as .setu (setuParse h)
    else P.as .other (C.parse h)
  size
    | .keyd x => x.size
    | .loca s => locaSize s
    | .setu d => setuSize d
    | .other x => C.size x
  ser
    | .keyd x => x.serialize
    | .loca s => locaSerialize s
    | .setu d => setuSerialize d
    | .other x => C.ser x

/-! ## A key -/

/-- `keyDeclarationBox`, `localeBox`, `setupBox`: the fields point to the box of the type in the list. -/
def Sub.keyd? : Sub α → Option Keyd
  | .keyd x => some x
  | _ => none
def Sub.loca? : Sub α → Option (Option Bytes)
  | .loca s => some s
  | _ => none
def Sub.setu? : Sub α → Option Bytes
  | .setu d => some d
  | _ => none

/-- `addAtom`: MetadataKeyBox.c 34-61. -/
def subAdd (acc : List (Sub α)) (_ : Nat) (c : Sub α) : Res (List (Sub α)) :=
  match c with
  | .keyd _ => if (acc.findSome? Sub.keyd?).isSome then .err .badData else .ok (acc ++ [c])
  | .loca _ => if (acc.findSome? Sub.loca?).isSome then .err .badData else .ok (acc ++ [c])
  | .setu _ => if (acc.findSome? Sub.setu?).isSome then .err .badData else .ok (acc ++ [c])
  | .other _ => .ok (acc ++ [c])

/-- `MP4MetadataKeyBox`: MP4Atoms.h 922-930. -/
structure Key (α : Type) where
  id : Nat
  subs : List (Sub α)

/-- MetadataKeyBox.c 63-121. -/
def key (C : Class α) : Class (Key α) where
  size x := listSize (sub C) 8 x.subs
  ser x :=
    if x.id = 0 then W.bad
    else serBase (listSize (sub C) 8 x.subs) x.id ;; serList (sub C) x.subs ;; W.assertFull
  parse h := do
    let l ← addAll (sub C) subAdd [] h.size
    pure ⟨h.type, l⟩

/-! ## The table -/

/-- `getMetadataKeyBox` and `addMetaDataKeyBox`: MetadataKeyTableBox.c 51-79. -/
def addKey (l : List (Key α)) (k : Key α) : Res (List (Key α)) :=
  if (l.find? fun x => x.id = k.id).isSome then .err .badParam else .ok (l ++ [k])

/-- The keys of QuickTime, which are read and forgotten: MetadataKeyTableBox.c 185-196. -/
def quicktime : P Unit := do
  let _ ← get32
  let n ← get32
  let _ ← P.repeat n (do
    let k ← get32
    let _ ← get32
    let _ ← getBytes w32(k + 4294967296 - 8)
    pure ())
  pure ()

/-- The loop of MetadataKeyTableBox.c 164-204. All boxes are keys. The first argument bounds the iterations, each of which
consumes bytes of the stream. -/
def tableLoop (C : Class α) : Nat → Nat → List (Key α) → P (List (Key α))
  | 0, _, _ => P.bad
  | n + 1, size, acc => fun s =>
    if s.read < size then
      match parseAtom (key C).parse s.rest with
      | .ok (k, h, r) =>
        if w32(s.read + h.size) > size then
          match quicktime s with
          | .ok (_, s) => tableLoop C n size acc s
          | .err e => .err e
          | .ub => .ub
        else match addKey acc k with
          | .ok acc => tableLoop C n size acc ⟨r, w32(s.read + h.size)⟩
          | .err e => .err e
          | .ub => .ub
      | .err e => .err e
      | .ub => .ub
    else .ok (acc, s)

/-- MetadataKeyTableBox.c 81-211. -/
def table (C : Class α) : Class (List (Key α)) where
  size l := listSize (key C) 8 l
  ser l := serBase (listSize (key C) 8 l) typeKeys ;; serList (key C) l ;; W.assertFull
  parse h := do
    let v ← fun s => tableLoop C (s.rest.length + 1) h.size [] s
    let r ← P.bytesRead
    if r ≠ h.size then P.fail .badData else pure v

/-- A box in an entry of boxed metadata. -/
inductive Bx (α : Type) where
  | keys (l : List (Key α))
  | other (x : α)

def boxes (C : Class α) : Class (Bx α) where
  parse h := if h.type = typeKeys then P.as .keys ((table C).parse h) else P.as .other (C.parse h)
  size
    | .keys l => (table C).size l
    | .other x => C.size x
  ser
    | .keys l => (table C).ser l
    | .other x => C.ser x

/-! ## The interface -/

def Bx.keys? : Bx α → Option (List (Key α))
  | .keys l => some l
  | .other _ => none

/-- The field `keyTable`: it points to the box in the list. -/
def keyTable (e : Entry Bool (Bx α)) : Option (List (Key α)) := e.ext.findSome? Bx.keys?

/-- A change of the box to which `keyTable` points, the only one of its type in the list. -/
def setTable (e : Entry Bool (Bx α)) (l : List (Key α)) : Entry Bool (Bx α) :=
  { e with ext := e.ext.map fun | .keys _ => .keys l | .other x => .other x }

/-- `ISONewMebxSampleDescription`: ISOSampleDescriptions.c 1675-1697. -/
def newMebx (dref : Nat) : Entry Bool (Bx α) := ⟨typeMebx, [0, 0, 0, 0, 0, 0], dref, true, [.keys []]⟩

/-- The loop of ISOSampleDescriptions.c 1717-1727: the first number from `n` on that no key has; `k` is how many numbers
are left up to 0xFFFFFFFF. -/
def search (ids : List Nat) : Nat → Nat → Option Nat
  | 0, _ => none
  | k + 1, n => if n ∈ ids then search ids k (n + 1) else some n

/-- `(u32)MP4_FOUR_CHAR_CODE` of four `char`: a negative one sets all the bits above it. -/
def code (a b c d : UInt8) : Nat :=
  if 128 ≤ d.toNat then 0xFFFFFF00 + d.toNat
  else if 128 ≤ c.toNat then 0xFFFF0000 + c.toNat * 256 + d.toNat
  else if 128 ≤ b.toNat then 0xFF000000 + b.toNat * 65536 + c.toNat * 256 + d.toNat
  else a.toNat * 16777216 + b.toNat * 65536 + c.toNat * 256 + d.toNat

/-- ISOSampleDescriptions.c 1730-1760: the value of the declaration. -/
def keyValue (desired ns : Nat) : Option Bytes → Res Bytes
  | none =>
    if four ns then
      .ok [UInt8.ofNat (desired / 16777216), UInt8.ofNat (desired / 65536), UInt8.ofNat (desired / 256), UInt8.ofNat desired]
    else .err .badParam
  | some v =>
    if four ns then
      match v with
      | a :: b :: c :: d :: _ => if desired ≠ code a b c d ∨ v.length ≠ 4 then .err .badParam else .ok v
      | _ => .ub
    else .ok v

/-- ISOSampleDescriptions.c 1777-1786 and MetadataSetupBox.c 116-150. -/
def newSetu (ns : Nat) : Option Bytes → Res (List (Sub α))
  | none => .ok []
  | some d => if ns = uiso then .err .badParam else if d.length = 0 then .err .badParam else .ok [.setu d]

/-- `ISOAddMebxMetadataToSampleEntry`: ISOSampleDescriptions.c 1699-1795, with the number of the key. When all numbers are
used the last key is taken; it has a declaration, because only this function makes keys of an entry that is built, so that
`addAtom` fails. -/
def addMeta (desired ns : Nat) (value locale setup : Option Bytes) (e : Entry Bool (Bx α)) :
    Res (Nat × Entry Bool (Bx α)) :=
  match keyTable e with
  | none => .err .badData
  | some t =>
    if 0xFFFFFFFF ≤ desired then .err .badData else do
    let v ← keyValue desired ns value
    let d ← newKeyd ns v
    match search (t.map (·.id)) (0xFFFFFFFF - desired) desired with
    | none => .err .badData
    | some n =>
      let s ← newSetu ns setup
      let k : Key α := ⟨n, .keyd d :: (locale.toList.map fun t => Sub.loca (some (t ++ [0]))) ++ s⟩
      let t ← addKey t k
      .ok (n, setTable e t)

/-- `ISOGetMebxHandle`: ISOSampleDescriptions.c 1797-1806, 113-128. -/
def getHandle (C : Class α) (e : Entry Bool (Bx α)) : Res Bytes := runW ((mebx (boxes C)).size e) ((mebx (boxes C)).ser e)

/-- `sampleEntryHToAtomPtr`: ISOSampleDescriptions.c 88-111. An entry of another class is taken for one of boxed
metadata. -/
def readEntry (C : Class α) (input : Bytes) : Res (Entry Bool (Bx α)) :=
  match parseHeader input with
  | .err e => .err e
  | .ub => .ub
  | .ok (h, _) =>
    if h.type = typeMebx then
      match parseAtom (mebx (boxes C)).parse input with
      | .ok (e, _, _) => .ok e
      | .err e => .err e
      | .ub => .ub
    else .ub

/-- `ISOGetMebxMetadataCount`: ISOSampleDescriptions.c 1808-1825. -/
def count (C : Class α) (input : Bytes) : Res Nat := do
  let e ← readEntry C input
  match keyTable e with
  | none => .err .badData
  | some t => .ok t.length

/-- What `ISOGetMebxMetadataConfig` gives back; `none` is an output that is left as it was. -/
structure Conf where
  id : Nat
  ns : Nat
  value : Bytes
  locale : Option (Option Bytes)
  setup : Option Bytes
  deriving DecidableEq, Repr

/-- `ISOGetMebxMetadataConfig`: ISOSampleDescriptions.c 1827-1876, with all outputs wanted. -/
def config (C : Class α) (input : Bytes) (i : Nat) : Res Conf := do
  let e ← readEntry C input
  match keyTable e with
  | none => .err .badData
  | some t =>
    match t[i]? with
    | none => .err .badParam
    | some k =>
      match k.subs.findSome? Sub.keyd? with
      | none => .ub
      | some d => .ok ⟨k.id, d.ns, d.value, k.subs.findSome? Sub.loca?, k.subs.findSome? Sub.setu?⟩

/-! ## Samples -/

/-- The loop of MP4OrdinaryTrackReader.c 146-164: `data` is what is from `data` to `end`, `out` what is in the handle of
the caller, if it was set. The first argument bounds the iterations. -/
def demuxLoop (key : Nat) : Nat → Bytes → Option Bytes → Res (Option Bytes)
  | 0, _, _ => .ub
  | n + 1, data, out =>
    match data with
    | a :: b :: c :: d :: rest =>
      let length := a.toNat * 16777216 + b.toNat * 65536 + c.toNat * 256 + d.toNat
      if length = 0 then .ok out
      else match rest with
        | e :: f :: g :: h :: body =>
          if e.toNat * 16777216 + f.toNat * 65536 + g.toNat * 256 + h.toNat = key then
            if w32(length + 4294967296 - 8) ≤ body.length then
              demuxLoop key n (data.drop length) (some (body.take w32(length + 4294967296 - 8)))
            else .ub
          else demuxLoop key n (data.drop length) out
        | _ => .ub
    | _ => .ok out

def demux (key : Nat) (sample : Bytes) (out : Option Bytes) : Res (Option Bytes) :=
  demuxLoop key (sample.length + 1) sample out

end Verif.Meb
