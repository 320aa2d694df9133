import Verif.Model.Od

/-!
# Tools of IPMP extensions (ISO/IEC 14496-13)
MP4IPMPTool.c, MP4IPMPToolList.c, MP4IPMPToolDescriptor.c, MP4IPMPInitialize.c, MP4IPMPXData.c,
MP4IPMPXDefaultData.c, IPMPToolUpdateCommand.c, MP4IPMPX.c

The functions of MP4IPMPX.c keep descriptors as bytes in handles: each parses its handle, changes
the descriptor and writes it back. A handle is its bytes here (Model/Handle has handles in detail);
when a call fails the handle is not described.

`flags` in MP4IPMPTool.c and `initFlag` in MP4IPMPToolDescriptor.c are bytes on the stack, but `GET8_V`
stores four bytes there. `wide` is what becomes of that: `.ub` in C; `.ok ()` where nothing in use
lies behind the byte and the least significant byte comes first. The members `ipmpToolDescriptorId`,
`controlPointCode` and `sequenceCode` are too short in the same way, but are followed by padding or
by what is read next.

Simplifications: allocations succeed. An error of writing IPMP data, which needs more than 4 GiB of
data and is not looked at by the code, is passed on. Descriptors of the classes of Model/Od give `ub`
where a tool is expected. Handles with lists of ids have the byte order of the machine, least significant
first.
-/

namespace Verif.Ipmp

open Verif.Descr Verif.Od

/-- `if(self->bytesRead != self->size) BAILWITHERROR(MP4BadDataErr)`. -/
def checkRead (size : Nat) : P Unit := do
  let br ← P.bytesRead
  if br = size then pure () else P.fail .badData

/-- A member written without looking at the space left, its size computed before:
MP4IPMPToolDescriptor.c 107-113, 117-125, MP4IPMPInitialize.c 78-86. -/
def inner (size : Nat) (w : W) : W := fun s =>
  (runW size w).bind fun bs => .ok { s with out := s.out ++ bs }

/-! ## Tools -/

/-- `MP4IPMPToolId`: MP4IPMPXData.h 66-70. -/
structure Id where
  upper : Nat
  lower : Nat
  deriving DecidableEq, Repr

def putId (i : Id) : W := put64 i.upper ;; put64 i.lower

def getId : P Id := do
  let u ← get64
  let l ← get64
  pure ⟨u, l⟩

/-- `MP4IPMPByteArray` with its size. -/
def putArray (b : Bytes) : W := put32 b.length ;; putBytes b

def getArray : P Bytes := do
  let n ← get32
  getBytes n

/-- `MP4IPMPTool`: MP4Descriptors.h 264-271. -/
structure Tool where
  id : Id
  alternates : List Id
  param : Option Bytes
  urls : List Bytes
  deriving DecidableEq, Repr

/-- `calculateSize`: MP4IPMPTool.c 28-70. -/
def toolSize (t : Tool) : Nat :=
  w32(5 + 17 + (if t.alternates.length ≠ 0 then 1 + 16 * t.alternates.length else 0) +
    (match t.param with | none => 0 | some p => 4 + p.length) + 1 + (t.urls.map fun u => u.length + 4).sum)

/-- `serialize`: MP4IPMPTool.c 72-134. -/
def putTool (t : Tool) : W :=
  putHeader 0x63 (toolSize t) ;; putId t.id ;;
  put8 ((if t.alternates.length > 0 then 1 else 0) * 0x80 + (if t.param.isSome then 1 else 0) * 0x40) ;;
  (if t.alternates.length > 0 then put8 t.alternates.length ;; W.each putId t.alternates else W.skip) ;;
  (match t.param with | none => W.skip | some p => putArray p) ;;
  put8 t.urls.length ;; W.each putArray t.urls ;; checkFull

/-- A byte on the stack, read with `GET8_V`. -/
def getFlag (wide : Res Unit) : P Nat := do
  let v ← get8
  P.lift wide
  pure v

/-- `createFromInputStream`: MP4IPMPTool.c 136-199. -/
def getTool (wide : Res Unit) (size : Nat) : P Tool := do
  let id ← getId
  let flags ← getFlag wide
  let alternates ← getIf (flags &&& 0x80 ≠ 0) (do let n ← get8; P.repeat n getId) []
  let param ← getIf (flags &&& 0x40 ≠ 0) (do let p ← getArray; pure (some p)) none
  let n ← get8
  let urls ← P.repeat n getArray
  checkRead size
  pure ⟨id, alternates, param, urls⟩

/-! ## Lists of tools -/

/-- `calculateSize`: MP4IPMPToolList.c 47-63. -/
def listSize (l : List Tool) : Nat := w32(5 + sizeAll toolSize l)

/-- `serialize`: MP4IPMPToolList.c 65-80. -/
def putList (l : List Tool) : W := putHeader 0x60 (listSize l) ;; putAll toolSize putTool l

/-- A descriptor where a tool is expected, `e` otherwise. -/
def getToolOr (wide : Res Unit) (e : Err) (tag size : Nat) : P Tool :=
  if tag = 0x63 then getTool wide size
  else if ownClass tag then P.bad
  else do
    let _ ← getDefault tag size
    P.fail e

/-- `createFromInputStream`: MP4IPMPToolList.c 82-109. -/
def getList (wide : Res Unit) (size : Nat) : P (List Tool) :=
  getAll size (getToolOr wide .invalidMedia) (fun l t => l ++ [t]) []

/-! ## IPMP data -/

/-- `MP4IPMPXDefaultData`: MP4IPMPXData.h 72-95. -/
structure XData where
  tag : Nat
  version : Nat
  data : Bytes
  deriving DecidableEq, Repr

/-- `calculateSize`: MP4IPMPXDefaultData.c 27-40. -/
def xSize (d : XData) : Nat := w32(6 + d.data.length)

/-- `serialize`: MP4IPMPXDefaultData.c 42-57, with `MP4EncodeBaseIPMPXData`, MP4IPMPXData.c 88-115. -/
def putX (d : XData) : W := putHeader d.tag (xSize d) ;; put8 d.version ;; putBytes d.data

/-- `MP4ParseIPMPXData`: MP4IPMPXData.c 33-86, with `createFromInputStream`, MP4IPMPXDefaultData.c
59-74. The callers add `data->size` to what they read. -/
def getX : P XData := getDesc fun tag size => do
  let v ← get8
  if v = 1 then do
    let br ← P.bytesRead
    let data ← getBytes w32(size + (4294967296 - br))
    pure ⟨tag, v, data⟩
  else P.fail .badData

/-! ## Initialisation -/

/-- `MP4IPMPInitialize`: MP4IPMPXData.h 97-112. -/
structure Init where
  control : Nat
  sequence : Nat
  data : List XData
  deriving DecidableEq, Repr

/-- `calculateSize`: MP4IPMPInitialize.c 40-64. -/
def initSize (i : Init) : Nat := w32(3 + sizeAll xSize i.data)

/-- `serialize`: MP4IPMPInitialize.c 66-91. -/
def putInit (i : Init) : W :=
  put8 i.control ;; put8 i.sequence ;; put8 i.data.length ;;
  W.each (fun d => inner (xSize d) (putX d)) i.data

/-- `createFromInputStream`: MP4IPMPInitialize.c 93-117. -/
def getInit : P Init := do
  let c ← get8
  let s ← get8
  let n ← get8
  let data ← P.repeat n getX
  pure ⟨c, s, data⟩

/-! ## Tool descriptors -/

/-- `MP4IPMPToolDescriptor`: MP4Descriptors.h 288-297. -/
structure Desc where
  id : Nat
  tool : Id
  url : Option Bytes
  init : Option Init
  data : List XData
  deriving DecidableEq, Repr

def Id.isZero (i : Id) : Bool := i.upper = 0 ∧ i.lower = 0

/-- `calculateSize`: MP4IPMPToolDescriptor.c 41-81. Without an id there is a URL, which may be NULL. -/
def descSize (d : Desc) : Res Nat :=
  if d.tool.isZero then
    match d.url with
    | none => .ub
    | some u => .ok w32(5 + 18 + 4 + u.length)
  else
    .ok w32(5 + 18 + 1 + (match d.init with | none => 0 | some i => initSize i) + 1 + sizeAll xSize d.data)

/-- `serialize`: MP4IPMPToolDescriptor.c 83-132, for the size computed before. -/
def putDesc (size : Nat) (d : Desc) : W :=
  putHeader 0x62 size ;; put16 d.id ;; putId d.tool ;;
  (if d.tool.isZero then
    match d.url with
    | none => W.fail .badData
    | some u => putArray u
  else
    put8 (if d.init.isSome then 0x80 else 0) ;;
    (match d.init with | none => W.skip | some i => inner (initSize i) (putInit i)) ;;
    put8 d.data.length ;; W.each (fun x => inner (xSize x) (putX x)) d.data) ;;
  checkFull

/-- The two together, as in every caller. -/
def writeDesc (d : Desc) : Res Bytes := (descSize d).bind fun n => runW n (putDesc n d)

/-- `createFromInputStream`: MP4IPMPToolDescriptor.c 134-184. -/
def getToolDesc (wide : Res Unit) (size : Nat) : P Desc := do
  let id ← get16
  let tool ← getId
  let d ← (if tool.isZero then do
      let u ← getArray
      pure ⟨id, tool, some u, none, []⟩
    else do
      let flag ← getFlag wide
      let init ← getIf (flag &&& 0x80 ≠ 0) (do let i ← getInit; pure (some i)) none
      let n ← get8
      let data ← P.repeat n getX
      pure ⟨id, tool, none, init, data⟩ : P Desc)
  checkRead size
  pure d

/-- `destroy`: MP4IPMPToolDescriptor.c 186-219: `initData->destroy` frees the structure
(MP4IPMPInitialize.c 135), and then it is freed again. -/
def destroy (d : Desc) : Res Unit := if d.init.isSome then .ub else .ok ()

/-! ## The command -/

/-- `calculateSize`: IPMPToolUpdateCommand.c 45-60, each descriptor computing its size. -/
def updateSize (l : List Desc) : Res Nat :=
  (l.foldr (fun d r => (descSize d).bind fun n => r.bind fun m => .ok (n + m)) (.ok 0)).bind
    fun m => .ok w32(5 + m)

/-- One descriptor of `SERIALIZE_DESCRIPTOR_LIST`. -/
def putOne (d : Desc) : W := fun s => (descSize d).bind fun n => nested n (putDesc n d) s

/-- `serialize`: IPMPToolUpdateCommand.c 62-77. -/
def putUpdate (size : Nat) (l : List Desc) : W := putHeader 9 size ;; W.each putOne l

def writeUpdate (l : List Desc) : Res Bytes := (updateSize l).bind fun n => runW n (putUpdate n l)

/-- A descriptor where a tool descriptor is expected: `addDescriptor`, IPMPToolUpdateCommand.c 27-43. -/
def getDescOr (wide : Res Unit) (e : Err) (tag size : Nat) : P Desc :=
  if tag = 0x62 then getToolDesc wide size
  else if ownClass tag then P.bad
  else do
    let _ ← getDefault tag size
    P.fail e

/-- `createFromInputStream`: IPMPToolUpdateCommand.c 79-98. -/
def getUpdate (wide : Res Unit) (size : Nat) : P (List Desc) :=
  getAll size (getDescOr wide .badData) (fun l d => l ++ [d]) []

/-- `destroy`: IPMPToolUpdateCommand.c 100-108. -/
def destroyAll : List Desc → Res Unit
  | [] => .ok ()
  | d :: ds => (destroy d).bind fun _ => destroyAll ds

/-! ## The functions on handles

The descriptor is destroyed at the end of each function, after an error too; `destroy` comes first
here, where it makes no difference. -/

/-- The result of a parser on the bytes of a handle. -/
def parse {α : Type} (p : P α) (h : Bytes) : Res α := (p ⟨h, 0⟩).bind fun r => .ok r.1

/-- A number with the least significant byte first. -/
def le : Bytes → Nat
  | [] => 0
  | b :: bs => b.toNat + 256 * le bs

/-- `altIds`, lower part first: MP4IPMPX.c 62-72. -/
def idsOf : Nat → Bytes → List Id
  | 0, _ => []
  | n + 1, h => ⟨le ((h.drop 8).take 8), le (h.take 8)⟩ :: idsOf n (h.drop 16)

/-- `MP4NewIPMPTool`: MP4IPMPX.c 30-101. -/
def newTool (lower upper : Nat) (alternates param : Option Bytes) : Res Bytes := do
  let ids ← (match alternates with
    | none => .ok []
    | some h => if h.length % 16 ≠ 0 ∨ h.length = 0 then .err .badParam else .ok (idsOf (h.length / 16) h))
  let t : Tool := ⟨⟨upper, lower⟩, ids, param, []⟩
  runW (toolSize t) (putTool t)

/-- A descriptor of another class, used as what it is not. -/
def misused {α : Type} (tag size : Nat) : P α :=
  if ownClass tag then P.bad
  else do
    let _ ← getDefault tag size
    P.bad

/-- A handle with a tool. Another descriptor is used as a tool. -/
def asTool (wide : Res Unit) (tag size : Nat) : P Tool :=
  if tag = 0x63 then getTool wide size
  else misused tag size

/-- `MP4AddUrlToIPMPTool`: MP4IPMPX.c 103-149. The URL gets its size, and memory filled with zeros. -/
def addUrl (wide : Res Unit) (h url : Bytes) : Res Bytes := do
  let t ← parse (getDesc (asTool wide)) h
  let t' : Tool := { t with urls := t.urls ++ [List.replicate url.length 0] }
  runW (toolSize t') (putTool t')

/-- `MP4NewIPMPToolListDescriptor`: MP4IPMPX.c 151-175. -/
def newList : Res Bytes := runW (listSize []) (putList [])

/-- A handle with a list. Another descriptor is used as a list. -/
def asList (wide : Res Unit) (tag size : Nat) : P (List Tool) :=
  if tag = 0x60 then getList wide size
  else misused tag size

/-- `MP4AddToolToIPMPToolList`: MP4IPMPX.c 177-227. -/
def addTool (wide : Res Unit) (h tool : Bytes) : Res Bytes := do
  let l ← parse (getDesc (asList wide)) h
  let t ← parse (getDesc (getToolOr wide .badParam)) tool
  runW (listSize (l ++ [t])) (putList (l ++ [t]))

/-- `MP4NewIPMPDescriptorPointer`: MP4IPMPX.c 229-266. -/
def newPointer (id tool : Nat) : Res Bytes :=
  if id ≠ 0xFF ∧ tool ≠ 0 then .err .badParam
  else if id = 0xFF ∧ tool = 0 then .err .badParam
  else runW (ptrSize ⟨id, tool, 0⟩) (putPtr ⟨id, tool, 0⟩)

/-- `MP4NewIPMPInitialize`: MP4IPMPX.c 321-346. -/
def newInit (control sequence : Nat) : Res Bytes :=
  if control = 0xFF then .err .badParam
  else runW (initSize ⟨control, sequence, []⟩) (putInit ⟨control, sequence, []⟩)

/-- `MP4AddIPMPDataToIPMPInitialize`: MP4IPMPX.c 348-397. -/
def addInitData (h data : Bytes) : Res Bytes := do
  let i ← parse getInit h
  let d ← parse getX data
  let i' : Init := { i with data := i.data ++ [d] }
  runW (initSize i') (putInit i')

/-- `MP4NewIPMPToolDescriptor`: MP4IPMPX.c 268-319. -/
def newDesc (id lower upper : Nat) (init : Option Bytes) : Res Bytes :=
  if id = 0 then .err .badParam
  else do
    let i ← (match init with
      | none => .ok none
      | some h => (parse getInit h).bind fun i => .ok (some i))
    let d : Desc := ⟨id, ⟨upper, lower⟩, none, i, []⟩
    let _ ← destroy d
    writeDesc d

/-- A handle with a tool descriptor. Another descriptor is used as one. -/
def asDesc (wide : Res Unit) (tag size : Nat) : P Desc :=
  if tag = 0x62 then getToolDesc wide size
  else misused tag size

/-- `MP4AddIPMPDataToIPMPToolDescriptor`: MP4IPMPX.c 399-446. -/
def addDescData (wide : Res Unit) (h data : Bytes) : Res Bytes := do
  let d ← parse (getDesc (asDesc wide)) h
  let _ ← destroy d
  let x ← parse getX data
  writeDesc { d with data := d.data ++ [x] }

/-- `MP4NewIPMPToolDescriptorUpdate`: MP4IPMPX.c 448-470. -/
def newUpdate : Res Bytes := writeUpdate []

/-- A handle with the command; `MP4ParseCommand` otherwise gives another command, used as one. -/
def asUpdate (wide : Res Unit) (tag size : Nat) : P (List Desc) :=
  if tag = 9 then getUpdate wide size
  else misused tag size

/-- `MP4AddIPMPToolDescriptorToUpdate`: MP4IPMPX.c 472-521. -/
def addDesc (wide : Res Unit) (h desc : Bytes) : Res Bytes := do
  let l ← parse (getDesc (asUpdate wide)) h
  let _ ← destroyAll l
  let d ← parse (getDesc (getDescOr wide .badData)) desc
  let _ ← destroy d
  writeUpdate (l ++ [d])

end Verif.Ipmp
