import Verif.Core.Box
import Verif.Model.Movie

/-!
# Item information
ItemInfoEntryAtom.c, ItemInfoAtom.c and the functions of ISOMeta.c on the information of items.

A `char *` member is `none` for `NULL`, else the allocated block. The host is little-endian (this matters
for one `memcpy` into a `u32`).
-/

namespace Verif.Iinf

/-- `strlen` on a block: reading behind it is undefined. -/
def strlen (b : Bytes) : Res Nat :=
  match b.findIdx? (· = 0) with
  | some i => .ok i
  | none => .ub

/-- The members of `ISOItemInfoEntryAtom` (MP4Atoms.h 2041-2054). -/
structure Entry where
  version : Nat
  flags : Nat
  id : Nat
  protection : Nat
  name : Option Bytes
  contentType : Option Bytes
  contentEncoding : Option Bytes
  extType : Nat
  ext : Option Bytes
  itemType : Nat
  uri : Option Bytes
  deriving DecidableEq, Repr

def typeInfe : Nat := 0x696e6665
def typeMime : Nat := 0x6d696d65
def typeUri : Nat := 0x75726920
def typeFree : Nat := 0x66726565
def typeSkip : Nat := 0x736b6970

/-- `if(s) size += strlen(s)`. -/
def strSize : Option Bytes → Res Nat
  | none => .ok 0
  | some b => strlen b

def extSize : Option Bytes → Nat
  | none => 0
  | some b => b.length

/-- `calculateSize`: ItemInfoEntryAtom.c 162-218. -/
def entrySize (e : Entry) : Res Nat :=
  (if e.version = 0 ∨ e.version = 1 then
      (strSize e.name).bind fun a => (strSize e.contentType).bind fun b => (strSize e.contentEncoding).bind fun c =>
        .ok (7 + a + b + c)
    else .ok 0 : Res Nat).bind fun n1 =>
  (if e.version ≥ 2 then
      (strSize e.name).bind fun a =>
      (if e.itemType = typeMime then
          (strSize e.contentType).bind fun b => (strSize e.contentEncoding).bind fun c => .ok (2 + b + c)
        else if e.itemType = typeUri then (strSize e.uri).bind fun b => .ok (1 + b)
        else .ok 0 : Res Nat).bind fun n =>
        .ok ((if e.version = 2 then 2 else if e.version = 3 then 4 else 0) + 7 + a + n)
    else .ok 0 : Res Nat).bind fun n2 =>
  .ok w32(12 + n1 + (if e.version = 1 then (if e.extType ≠ 0 then 4 else 0) + extSize e.ext else 0) + n2)

/-- A string with its terminator, or an empty one for `NULL`. -/
def putStr : Option Bytes → W
  | none => put8 0
  | some b => match strlen b with
    | .ok n => putBytes (b.take (n + 1))
    | _ => W.bad

/-- `serialize`: ItemInfoEntryAtom.c 69-160; `size` from `calculateSize`. -/
def putEntry (size : Nat) (e : Entry) : W :=
  serFull size typeInfe e.version e.flags ;;
  (if e.version = 3 then put32 e.id else put16 e.id) ;;
  put16 e.protection ;;
  (if e.version ≥ 2 then put32 e.itemType else W.skip) ;;
  putStr e.name ;;
  (if e.version < 2 ∨ e.itemType = typeMime then putStr e.contentType ;; putStr e.contentEncoding
    else if e.itemType = typeUri then putStr e.uri else W.skip) ;;
  (if e.version = 1 then
      (if e.extType ≠ 0 then put32 e.extType else W.skip) ;;
      (match e.ext with
        | none => W.skip
        | some b => putBytes b)
    else W.skip) ;;
  W.assertFull

/-- `calculateSize` and `serialize` of one entry. -/
def writeEntry (e : Entry) : Res Bytes := (entrySize e).bind fun n => runW n (putEntry n e)

/-- One string of the buffer: nothing is left, or it is copied up to its terminator and skipped. The buffer
behind the bytes read was not set. -/
def takeStr (r : Bytes) : Res (Option Bytes × Bytes) :=
  match r with
  | [] => .ok (none, [])
  | _ => (strlen r).bind fun n => .ok (some (r.take (n + 1)), r.drop (n + 1))

/-- A `u32` in memory. -/
def fromHost (bs : Bytes) : Nat := unbe bs.reverse

/-- The end of `createFromInputStream` for version 1: ItemInfoEntryAtom.c 325-343. With two or three bytes
left the handle gets a negative size. -/
def takeExt (r : Bytes) : Res (Nat × Option Bytes) :=
  if r.length < 2 then (if r = [] then .ok (0, none) else .err .badData)
  else if r.length < 4 then .ub
  else .ok (fromHost (r.take 4), some (r.drop 4))

/-- The strings in the buffer: ItemInfoEntryAtom.c 261-350. -/
def parseStrings (e : Entry) (r : Bytes) : Res Entry :=
  (takeStr r).bind fun (name, r) =>
  (if e.version < 2 ∨ e.itemType = typeMime then
      (takeStr r).bind fun (t, r) => (takeStr r).bind fun (c, r) =>
        .ok ({ e with name := name, contentType := t, contentEncoding := c }, r)
    else if e.itemType = typeUri then
      (takeStr r).bind fun (u, r) => .ok ({ e with name := name, uri := u }, r)
    else .ok ({ e with name := name }, r) : Res (Entry × Bytes)).bind fun (e, r) =>
  if e.version = 1 then (takeExt r).bind fun (t, x) => .ok { e with extType := t, ext := x }
  else if r = [] then .ok e else .err .badData

/-- `createFromInputStream`: ItemInfoEntryAtom.c 220-355. The buffer has 4096 bytes. The difference of the
sizes is an unsigned one, so it is not negative. -/
def parseEntry (h : Hdr) : P Entry := do
  let vf ← getVersionFlags
  let id ← (if vf.1 = 3 then get32 else get16 : P Nat)
  let protection ← get16
  let itemType ← (if vf.1 ≥ 2 then get32 else pure 0 : P Nat)
  let br ← P.bytesRead
  let bs ← getBytes w32(h.size + (4294967296 - br))
  if bs.length > 4096 then P.bad else
  P.lift (parseStrings ⟨vf.1, vf.2, id, protection, none, none, none, 0, none, itemType, none⟩ bs)

/-! ## The box around them -/

inductive Member where
  | infe (e : Entry)
  | other (type : Nat) (data : Bytes)
  deriving DecidableEq, Repr

def typeIinf : Nat := 0x69696e66

def memberSize : Member → Res Nat
  | .infe e => entrySize e
  | .other _ d => .ok w32(8 + d.length)

def putMember (size : Nat) : Member → W
  | .infe e => putEntry size e
  | .other t d => serBase size t ;; putBytes d ;; W.assertFull

/-- `calculateSize` and `serialize`: ItemInfoAtom.c 81-129; a list of more than 65535 entries is cut by
`PUT16`. -/
def write (version flags : Nat) (l : List Member) : Res Bytes :=
  (Movie.mapRes memberSize l).bind fun ns =>
    let size := w32(12 + (if version ≠ 0 then 4 else 2) + ns.sum)
    runW size (serFull size typeIinf version flags ;;
      (if version = 0 then put16 l.length else put32 l.length) ;;
      W.each (fun p => nested p.2 (putMember p.2 p.1)) (l.zip ns) ;; W.assertFull)

/-- The class of a member: MP4Atoms.c. Boxes of other classes are their bytes. -/
def parseMember (h : Hdr) : P Member :=
  if h.type = typeInfe then Member.infe <$> parseEntry h
  else do
    let br ← P.bytesRead
    let d ← getBytes w32(h.size + (4294967296 - br))
    pure (.other h.type d)

/-- The loop of `createFromInputStream`: ItemInfoAtom.c 151-166. Every round reads at least eight bytes. -/
def loop (size : Nat) : Nat → List Member → P (List Member)
  | 0, _ => P.bad
  | fuel + 1, l => do
    let br ← P.bytesRead
    if br < size then do
      let m ← getAtom parseMember
      loop size fuel (match m with
        | .other t _ => if t = typeFree ∨ t = typeSkip then l else l ++ [m]
        | _ => l ++ [m])
    else pure l

/-- `createFromInputStream`: ItemInfoAtom.c 131-180: version, flags and members. -/
def parse (h : Hdr) : P (Nat × Nat × List Member) := do
  let vf ← getVersionFlags
  let count ← (if vf.1 = 0 then get16 else get32 : P Nat)
  let n ← P.available
  let l ← loop h.size (n + 1) []
  let br ← P.bytesRead
  if br ≠ h.size then P.fail .badData
  else if l.length ≠ count then P.fail .badData
  else pure (vf.1, vf.2, l)

/-! ## The functions on items

The state is the list in `iinf`, `none` before the first information was set. Strings of the caller are
given without their terminator; items by their ID (`item_ID` of the location entry). -/

abbrev S := Option (List Member)

/-- `calloc(1, strlen + 1)` and `memcpy`, or an empty string: ISOMeta.c 1028-1039. -/
def copyStr : Option Bytes → Bytes
  | some s => s ++ [0]
  | none => [0]

/-- `calloc(1, strlen)` and `memcpy`, or an empty string: ISOMeta.c 1041-1063. -/
def copyShort : Option Bytes → Bytes
  | some s => s
  | none => [0]

/-- `ISOSetItemInfo`: ISOMeta.c 996-1070. -/
def setInfo (s : S) (id protection : Nat) (name contentType contentEncoding : Option Bytes) : S :=
  some (s.getD [] ++ [.infe ⟨0, 0, id, protection, some (copyStr name), some (copyShort contentType),
    some (copyShort contentEncoding), 0, none, 0, none⟩])

def isEntry (id : Nat) : Member → Bool
  | .infe e => e.id == id
  | .other _ _ => false

/-- `getEntry`: ItemInfoAtom.c 58-79: the last one. -/
def getEntry (l : List Member) (id : Nat) : Option Entry :=
  match l.reverse.find? (isEntry id) with
  | some (.infe e) => some e
  | _ => none

/-- Change the last entry of the item in place. -/
def changeFirst (id : Nat) (f : Entry → Entry) : List Member → List Member
  | [] => []
  | m :: l => match m with
    | .infe e => if e.id = id then .infe (f e) :: l else m :: changeFirst id f l
    | .other _ _ => m :: changeFirst id f l

def change (l : List Member) (id : Nat) (f : Entry → Entry) : List Member := (changeFirst id f l.reverse).reverse

/-- Look up the entry, with `e` for the missing box and entry, and change it. -/
def withEntry (s : S) (id : Nat) (err : Err) (f : Entry → Entry) : Res S :=
  match s with
  | none => .err err
  | some l => match getEntry l id with
    | none => .err err
    | some _ => .ok (some (change l id f))

/-- `ISOSetItemInfoExtension`: ISOMeta.c 1072-1105. -/
def setExtension (s : S) (id : Nat) (ext : Bytes) (type : Nat) : Res S :=
  withEntry s id .badParam fun e => { e with ext := some ext, extType := type, version := 1 }

/-- `ISOSetItemInfoItemType`: ISOMeta.c 1139-1177. -/
def setType (s : S) (id type : Nat) (uri : Option Bytes) : Res S :=
  withEntry s id .badParam fun e => { e with version := 2, itemType := type, uri := some (copyStr uri) }

/-- `ISOHideItem`: ISOMeta.c 1179-1209. `primary` is the item in `pitm`, `none` without the box. -/
def hide (s : S) (primary : Option Nat) (id : Nat) : Res S :=
  match s with
  | none => .err .invalidMedia
  | some _ => match primary with
    | none => .ub
    | some p => if p = id then .err .invalidMedia
      else withEntry s id .invalidMedia fun e => { e with flags := e.flags ||| 1 }

/-- The entry, for the queries. -/
def entryOf (s : S) (id : Nat) (err : Err) : Res Entry :=
  match s with
  | none => .err err
  | some l => match getEntry l id with
    | none => .err err
    | some e => .ok e

/-- `ISOGetItemInfoExtension`: ISOMeta.c 1107-1137, into an empty handle. `MP4HandleCat` refuses a missing
handle. -/
def getExtension (s : S) (id : Nat) : Res (Bytes × Nat) :=
  (entryOf s id .badParam).bind fun e =>
    if e.version ≠ 1 then .err .invalidMedia else
    match e.ext with
    | none => .err .badParam
    | some x => .ok (x, e.extType)

/-- `ISOGetItemInfoItemType`: ISOMeta.c 1240-1277. The second part is the string, or nothing if the argument
is left as it is. -/
def getType (s : S) (id : Nat) : Res (Nat × Option Bytes) :=
  (entryOf s id .badParam).bind fun e =>
    if e.version ≠ 2 then .err .invalidMedia else
    match e.uri with
    | none => .ok (e.itemType, none)
    | some u => (strlen u).bind fun n => .ok (e.itemType, some (u.take n))

/-- `ISOIsItemHidden`: ISOMeta.c 1211-1238; the error `MP4NotFoundErr` stands for no. -/
def isHidden (s : S) (id : Nat) : Res Bool :=
  (entryOf s id .invalidMedia).bind fun e => .ok (e.flags % 2 = 1)

/-- `strcmp(name, block) == 0`. -/
def sameStr (name : Bytes) (b : Bytes) : Res Bool := (strlen b).bind fun n => .ok (b.take n = name)

/-- `ISOFindItemByName`: ISOMeta.c 1506-1546, with `exact_case`, up to the ID that is then looked up. Members
of other classes do not have a name. -/
def findName (name : Bytes) : List Member → Res Nat
  | [] => .err .notFound
  | .other _ _ :: _ => .ub
  | .infe e :: l => match e.name with
    | none => .ub
    | some b => (sameStr name b).bind fun yes => if yes then .ok w16(e.id) else findName name l

def findByName (s : S) (name : Bytes) : Res Nat :=
  match s with
  | none => .err .notFound
  | some l => findName name l

end Verif.Iinf
