import Verif.Model.Ipmp
import Verif.Spec.Descr

/-! # The layout of tools, of IPMP data and of the command that updates them (ISO/IEC 14496-13) -/

namespace Verif.Ipmp

open Verif.Descr

/-- 128 bits. -/
def idBytes (i : Id) : Bytes := be 8 i.upper ++ be 8 i.lower

/-- A length in four bytes, then the bytes. -/
def arrayBytes (b : Bytes) : Bytes := be 4 b.length ++ b

/-- Alternatives, if there are any. -/
def altBytes (l : List Id) : Bytes := if l = [] then [] else be 1 l.length ++ l.flatMap idBytes

def paramBytes : Option Bytes → Bytes
  | none => []
  | some p => arrayBytes p

/-- Bit 7: there are alternatives. Bit 6: there is a parametric description. -/
def toolFlags (t : Tool) : Nat := (if t.alternates = [] then 0 else 128) + (if t.param = none then 0 else 64)

def toolPayload (t : Tool) : Bytes :=
  idBytes t.id ++ (be 1 (toolFlags t) ++ (altBytes t.alternates ++ (paramBytes t.param ++
    (be 1 t.urls.length ++ t.urls.flatMap arrayBytes))))

def toolBytes (t : Tool) : Bytes := descr 4 0x63 (toolPayload t)

def listBytes (l : List Tool) : Bytes := descr 4 0x60 (l.flatMap toolBytes)

/-- IPMP data look like a descriptor with a version first. -/
def xBytes (d : XData) : Bytes := descr 4 d.tag (be 1 d.version ++ d.data)

def initBytes (i : Init) : Bytes :=
  be 1 i.control ++ (be 1 i.sequence ++ (be 1 i.data.length ++ i.data.flatMap xBytes))

/-- With the id 0, where to find the tool; otherwise, what to start it with, and data. -/
def bodyBytes (d : Desc) : Bytes :=
  if d.tool = ⟨0, 0⟩ then
    match d.url with
    | none => []
    | some u => arrayBytes u
  else
    (match d.init with
      | none => be 1 0
      | some i => be 1 128 ++ initBytes i) ++
    (be 1 d.data.length ++ d.data.flatMap xBytes)

def descPayload (d : Desc) : Bytes := be 2 d.id ++ (idBytes d.tool ++ bodyBytes d)

def descBytes (d : Desc) : Bytes := descr 4 0x62 (descPayload d)

def updateBytes (l : List Desc) : Bytes := descr 4 9 (l.flatMap descBytes)

/-! ## What can be written: numbers in their fields -/

structure IdOk (i : Id) : Prop where
  upper : i.upper < 2 ^ 64
  lower : i.lower < 2 ^ 64

structure ToolOk (t : Tool) : Prop where
  id : IdOk t.id
  alternates : ∀ i ∈ t.alternates, IdOk i
  alternatesCount : t.alternates.length < 256
  urlsCount : t.urls.length < 256
  size : (toolPayload t).length < 2 ^ 28

structure XOk (d : XData) : Prop where
  tag : d.tag < 256
  version : d.version = 1
  size : d.data.length + 1 < 2 ^ 28

structure InitOk (i : Init) : Prop where
  control : i.control < 256
  sequence : i.sequence < 256
  count : i.data.length < 256
  data : ∀ d ∈ i.data, XOk d
  size : (initBytes i).length < 2 ^ 28

/-- Either a URL and nothing else, or an id and no URL. -/
structure DescOk (d : Desc) : Prop where
  id : d.id < 65536
  tool : IdOk d.tool
  kind : if d.tool = ⟨0, 0⟩ then d.url ≠ none ∧ d.init = none ∧ d.data = [] else d.url = none
  init : ∀ i, d.init = some i → InitOk i
  count : d.data.length < 256
  data : ∀ x ∈ d.data, XOk x
  size : (descPayload d).length < 2 ^ 28

/-! ## Calls -/

/-- Calls one after the other, each on the handle the last one left; the first error ends it. -/
def calls {α : Type} (f : Bytes → α → Res Bytes) : Bytes → List α → Res Bytes
  | h, [] => .ok h
  | h, a :: as => (f h a).bind fun h' => calls f h' as

/-- An id in memory: lower part first, the least significant byte of each first. -/
def idLe (i : Id) : Bytes := (be 8 i.lower).reverse ++ (be 8 i.upper).reverse

end Verif.Ipmp
