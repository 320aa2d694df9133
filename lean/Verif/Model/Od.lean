import Verif.Model.Descr

/-!
# Object descriptors and commands (ISO/IEC 14496-1)
MP4ObjectDescriptor.c, MP4InitialObjectDescriptor.c, MP4ES_ID_IncDescriptor.c,
MP4ES_ID_RefDescriptor.c, MP4Descriptors.c, MP4Commands.c, ODUpdateCommand.c, ESUpdateCommand.c,
MP4DefaultCommand.c, ObjectDescriptorAtom.c

Simplification: an object descriptor inside an object descriptor, an ES descriptor inside an ES
descriptor, the classes for IPMP tools (tags 0x60, 0x62, 0x63), pointers with the tag 0x15 and the
command for IPMP tools (tag 9) are outside the model; meeting one gives `ub`.
-/

namespace Verif.Od

open Verif.Descr

/-! ## Descriptors inside -/

/-- `calculateSize`: MP4ES_ID_IncDescriptor.c 30-42. -/
def incSize (_ : Nat) : Nat := 5 + 4

/-- `serialize`: MP4ES_ID_IncDescriptor.c 44-58; the argument is the track ID. -/
def putInc (id : Nat) : W := putHeader 0x0E (incSize id) ;; put32 id

/-- `createFromInputStream`: MP4ES_ID_IncDescriptor.c 60-72. -/
def getInc : P Nat := get32

/-- `calculateSize`: MP4ES_ID_RefDescriptor.c 30-42. -/
def refSize (_ : Nat) : Nat := 5 + 2

/-- `serialize`: MP4ES_ID_RefDescriptor.c 44-58; the argument is the index in the track reference. -/
def putRef (i : Nat) : W := putHeader 0x0F (refSize i) ;; put16 i

/-- `createFromInputStream`: MP4ES_ID_RefDescriptor.c 60-72. -/
def getRef : P Nat := get16

/-- The method `calculateSize` of the classes in Model/Descr.lean. -/
def childSize : Child → Nat
  | .dec d => decSize d
  | .sl c => slSize c
  | .ptr p => ptrSize p
  | .plain d => defaultSize d

/-- The method `serialize`. -/
def putChild : Child → W
  | .dec d => putDec d
  | .sl c => putSl c
  | .ptr p => putPtr p
  | .plain d => putDefault d

/-- A descriptor inside an object descriptor. -/
inductive Item
  | es (e : Es)
  | inc (id : Nat)
  | ref (i : Nat)
  | child (c : Child)
  deriving DecidableEq, Repr

def itemSize : Item → Nat
  | .es e => esSize e
  | .inc id => incSize id
  | .ref i => refSize i
  | .child c => childSize c

def putItem : Item → W
  | .es e => putEs e
  | .inc id => putInc id
  | .ref i => putRef i
  | .child c => putChild c

/-- The class by tag: MP4Descriptors.c 68-128. -/
def getItem (tag size : Nat) : P Item :=
  if tag = 3 then do let e ← getEs size; pure (.es e)
  else if tag = 0x0E then do let id ← getInc; pure (.inc id)
  else if tag = 0x0F then do let i ← getRef; pure (.ref i)
  else do let c ← getChild tag size; pure (.child c)

/-- `ADD_DESCRIPTOR_LIST_SIZE`: MP4Impl.h 429-445, without the reduction to 32 bits. -/
def sizeAll {α : Type} (size : α → Nat) (l : List α) : Nat := (l.map size).sum

/-- `SERIALIZE_DESCRIPTOR_LIST`: MP4Impl.h 517-541. -/
def putAll {α : Type} (size : α → Nat) (put : α → W) (l : List α) : W := W.each (fun a => nested (size a) (put a)) l

/-- `while(self->bytesRead < self->size)` with `MP4ParseDescriptor`. Every round reads at least two
bytes, so the number of unread bytes bounds the number of rounds (first argument after `add`). -/
def loop {α σ : Type} (size : Nat) (get : Nat → Nat → P α) (add : σ → α → σ) : Nat → σ → P σ
  | 0, _ => P.bad
  | fuel + 1, s => do
    let br ← P.bytesRead
    if br < size then do
      let a ← getDesc get
      loop size get add fuel (add s a)
    else pure s

/-- The loop with enough rounds. -/
def getAll {α σ : Type} (size : Nat) (get : Nat → Nat → P α) (add : σ → α → σ) (s : σ) : P σ := do
  let n ← P.available
  loop size get add (n + 1) s

/-! ## Object descriptor -/

/-- `MP4ObjectDescriptor`. -/
structure Od where
  tag : Nat
  id : Nat
  url : Bytes
  es : List Es
  inc : List Nat
  ref : List Nat
  oci : List Default
  ptr : List Ptr
  ext : List Item
  deriving DecidableEq, Repr

/-- `calculateSize`: MP4ObjectDescriptor.c 69-90. -/
def odSize (d : Od) : Nat :=
  w32(5 + 2 + (if d.url.length ≠ 0 then d.url.length + 1 else 0) + sizeAll esSize d.es + sizeAll incSize d.inc +
    sizeAll refSize d.ref + sizeAll defaultSize d.oci + sizeAll ptrSize d.ptr + sizeAll itemSize d.ext)

/-- `serialize`: MP4ObjectDescriptor.c 92-123. -/
def putOd (d : Od) : W :=
  putHeader d.tag (odSize d) ;;
  put16 (w16(d.id <<< 6) ||| (if d.url.length ≠ 0 then 1 <<< 5 else 0) ||| 0x1F) ;;
  (if d.url.length ≠ 0 then put8 d.url.length ;; putBytes d.url else W.skip) ;;
  putAll esSize putEs d.es ;; putAll incSize putInc d.inc ;; putAll refSize putRef d.ref ;;
  putAll defaultSize putDefault d.oci ;; putAll ptrSize putPtr d.ptr ;; putAll itemSize putItem d.ext

/-- Tags of object content information: 0x40 to 0x5F. -/
def isOci (tag : Nat) : Bool := 0x40 ≤ tag ∧ tag ≤ 0x5F

/-- `addDescriptor`: MP4ObjectDescriptor.c 31-67. -/
def odAdd (d : Od) : Item → Od
  | .es e => { d with es := d.es ++ [e] }
  | .inc id => { d with inc := d.inc ++ [id] }
  | .ref i => { d with ref := d.ref ++ [i] }
  | .child (.ptr p) => { d with ptr := d.ptr ++ [p] }
  | i => { d with ext := d.ext ++ [i] }

/-- Where a parsed descriptor goes: MP4ObjectDescriptor.c 150-187. -/
def odInsert (d : Od) : Item → Od
  | .child (.plain x) =>
    if isOci x.tag then { d with oci := d.oci ++ [x] } else odAdd d (.child (.plain x))
  | i => odAdd d i

/-- `createFromInputStream`: MP4ObjectDescriptor.c 125-193. Both tags for object descriptors give
0x01: MP4Descriptors.c 101-105. -/
def getOd (size : Nat) : P Od := do
  let val ← get16
  let url ← getIf (val &&& 0x20 ≠ 0) (do let n ← get8; getBytes n) []
  getAll size getItem odInsert ⟨0x01, val >>> 6, url, [], [], [], [], [], []⟩

/-- `removeESDS`: MP4ObjectDescriptor.c 216-241. -/
def removeEs (d : Od) : Od := { d with es := [] }

/-! ## Initial object descriptor -/

/-- `OD_profileAndLevel` and the other four: MP4Descriptors.h. -/
structure Profiles where
  od : Nat
  scene : Nat
  audio : Nat
  visual : Nat
  graphics : Nat
  deriving DecidableEq, Repr

/-- `MP4InitialObjectDescriptor`. -/
structure Iod where
  tag : Nat
  id : Nat
  inline : Nat
  url : Bytes
  profiles : Profiles
  es : List Es
  inc : List Nat
  oci : List Default
  ptr : List Ptr
  ext : List Item
  deriving DecidableEq, Repr

/-- `calculateSize`: MP4InitialObjectDescriptor.c 64-88. -/
def iodSize (d : Iod) : Nat :=
  w32(5 + 2 + (if d.url.length ≠ 0 then d.url.length + 1 else
    5 + sizeAll esSize d.es + sizeAll incSize d.inc + sizeAll defaultSize d.oci + sizeAll ptrSize d.ptr) +
    sizeAll itemSize d.ext)

/-- `serialize`: MP4InitialObjectDescriptor.c 90-129. -/
def putIod (d : Iod) : W :=
  putHeader d.tag (iodSize d) ;;
  put16 (w16(d.id <<< 6) ||| (if d.url.length ≠ 0 then 1 <<< 5 else 0) ||| (if d.inline ≠ 0 then 1 <<< 4 else 0) |||
    0xF) ;;
  (if d.url.length ≠ 0 then put8 d.url.length ;; putBytes d.url else
    put8 d.profiles.od ;; put8 d.profiles.scene ;; put8 d.profiles.audio ;; put8 d.profiles.visual ;;
    put8 d.profiles.graphics ;; putAll esSize putEs d.es ;; putAll incSize putInc d.inc ;;
    putAll defaultSize putDefault d.oci ;; putAll ptrSize putPtr d.ptr) ;;
  putAll itemSize putItem d.ext ;; W.assertFull

/-- `addDescriptor`: MP4InitialObjectDescriptor.c 31-62. -/
def iodAdd (d : Iod) : Item → Iod
  | .es e => { d with es := d.es ++ [e] }
  | .inc id => { d with inc := d.inc ++ [id] }
  | .child (.ptr p) => { d with ptr := d.ptr ++ [p] }
  | i => { d with ext := d.ext ++ [i] }

/-- Where a parsed descriptor goes: MP4InitialObjectDescriptor.c 167-199. -/
def iodInsert (d : Iod) : Item → Iod
  | .child (.plain x) =>
    if isOci x.tag then { d with oci := d.oci ++ [x] } else iodAdd d (.child (.plain x))
  | i => iodAdd d i

/-- The members that stand in the place of a URL. -/
def getProfiles : P Profiles := do
  let od ← get8
  let scene ← get8
  let audio ← get8
  let visual ← get8
  let graphics ← get8
  pure ⟨od, scene, audio, visual, graphics⟩

/-- `createFromInputStream`: MP4InitialObjectDescriptor.c 131-204; created with `calloc`. Both tags
give 0x10: MP4Descriptors.c 70-74. -/
def getIod (size : Nat) : P Iod := do
  let val ← get16
  let url ← getIf (val &&& 0x20 ≠ 0) (do let n ← get8; getBytes n) []
  let ps ← getIf (¬ val &&& 0x20 ≠ 0) getProfiles ⟨0, 0, 0, 0, 0⟩
  getAll size getItem iodInsert ⟨0x10, val >>> 6, if val &&& 0x10 ≠ 0 then 1 else 0, url, ps, [], [], [], [], []⟩

/-! ## Any descriptor -/

inductive Any
  | od (d : Od)
  | iod (d : Iod)
  | item (i : Item)
  deriving DecidableEq, Repr

def anySize : Any → Nat
  | .od d => odSize d
  | .iod d => iodSize d
  | .item i => itemSize i

def putAny : Any → W
  | .od d => putOd d
  | .iod d => putIod d
  | .item i => putItem i

/-- `MP4ParseDescriptor`, the class by tag: MP4Descriptors.c 68-128. -/
def getAny (tag size : Nat) : P Any :=
  if tag = 0x01 ∨ tag = 0x11 then do let d ← getOd size; pure (.od d)
  else if tag = 0x02 ∨ tag = 0x10 then do let d ← getIod size; pure (.iod d)
  else do let i ← getItem tag size; pure (.item i)

/-- `MP4CopyDescriptor`: MP4Descriptors.c 142-181. An error is overwritten by the result of
`MP4DisposeHandle`; `none` is an output that was not set. -/
def copy (d : Any) : Res (Option Any) :=
  match runW (anySize d) (putAny d) with
  | .ub => .ub
  | .err _ => .ok none
  | .ok bs =>
    match getDesc getAny ⟨bs, 0⟩ with
    | .ok (d', _) => .ok (some d')
    | .err _ => .ok none
    | .ub => .ub

/-! ## Commands -/

/-- A command: an update of object descriptors, of ES descriptors, or another. -/
inductive Cmd
  | odUpdate (ods : List Od) (ext : List Any)
  | esUpdate (id : Nat) (es : List Es) (ref : List Nat) (ext : List Any)
  | plain (d : Default)
  deriving DecidableEq, Repr

/-- `calculateSize`: ODUpdateCommand.c 54-69, ESUpdateCommand.c 59-76, MP4DefaultCommand.c 32-44. -/
def cmdSize : Cmd → Nat
  | .odUpdate ods ext => w32(5 + sizeAll odSize ods + sizeAll anySize ext)
  | .esUpdate _ es ref ext => w32(5 + 2 + sizeAll esSize es + sizeAll refSize ref + sizeAll anySize ext)
  | .plain d => defaultSize d

/-- `serialize`: ODUpdateCommand.c 71-88, ESUpdateCommand.c 78-99, MP4DefaultCommand.c 46-61. -/
def putCmd (c : Cmd) : W :=
  match c with
  | .odUpdate ods ext => putHeader 1 (cmdSize c) ;; putAll odSize putOd ods ;; putAll anySize putAny ext
  | .esUpdate id es ref ext =>
    putHeader 3 (cmdSize c) ;; put16 w32(id <<< 6) ;; putAll esSize putEs es ;; putAll refSize putRef ref ;;
    putAll anySize putAny ext
  | .plain d => putHeader d.tag (cmdSize c) ;; putBytes d.data

/-- Lines 95-109 of ODUpdateCommand.c. -/
def odUpdateAdd (s : List Od × List Any) : Any → List Od × List Any
  | .od d => (s.1 ++ [d], s.2)
  | a => (s.1, s.2 ++ [a])

/-- Lines 110-128 of ESUpdateCommand.c. -/
def esUpdateAdd (s : List Es × List Nat × List Any) : Any → List Es × List Nat × List Any
  | .item (.es e) => (s.1 ++ [e], s.2.1, s.2.2)
  | .item (.ref i) => (s.1, s.2.1 ++ [i], s.2.2)
  | a => (s.1, s.2.1, s.2.2 ++ [a])

/-- The class by tag: MP4Commands.c 64-85, with `createFromInputStream` of ODUpdateCommand.c 90-117,
ESUpdateCommand.c 101-136 and MP4DefaultCommand.c 63-76. -/
def getCmd (tag size : Nat) : P Cmd :=
  if tag = 1 then do
    let s ← getAll size getAny odUpdateAdd ([], [])
    pure (.odUpdate s.1 s.2)
  else if tag = 3 then do
    let val ← get16
    let s ← getAll size getAny esUpdateAdd ([], [], [])
    pure (.esUpdate (val >>> 6) s.1 s.2.1 s.2.2)
  else if tag = 9 then P.bad
  else do let d ← getDefault tag size; pure (.plain d)

/-- `MP4ParseCommand`: MP4Commands.c 35-93. -/
def parseCommand : P Cmd := getDesc getCmd

/-! ## The `iods` box -/

def typeIods : Nat := 0x696F6473

/-- `calculateSize`: ObjectDescriptorAtom.c 79-92. -/
def iodsSize (d : Option Any) : Nat := w32(12 + sizeOpt anySize d)

/-- `serialize`: ObjectDescriptorAtom.c 62-77. -/
def iodsSerialize (version flags : Nat) (d : Option Any) : W :=
  serFull (iodsSize d) typeIods version flags ;; nestedOpt anySize putAny d ;; W.assertFull

/-- `createFromInputStream`: ObjectDescriptorAtom.c 94-113. -/
def iodsParse (_ : Hdr) : P ((Nat × Nat) × Option Any) := do
  let vf ← getVersionFlags
  let d ← getDesc getAny
  pure (vf, some d)

/-- `setDescriptor`: ObjectDescriptorAtom.c 43-58. -/
def iodsSet (d : Option Any) (new : Any) : Res (Option Any) :=
  match d with
  | some _ => .err .badParam
  | none => .ok (some new)

end Verif.Od
