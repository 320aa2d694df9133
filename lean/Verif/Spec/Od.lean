import Verif.Props.C49
import Verif.Model.Od

/-!
# Layout of object descriptors and commands (ISO/IEC 14496-1, 7.2.5, 7.2.6.3, 7.2.6.4), and which can be written
-/

namespace Verif.Od

open Verif.Descr

/-! ## Layout -/

def incBytes (id : Nat) : Bytes := descr 4 0x0E (be 4 id)

def refBytes (i : Nat) : Bytes := descr 4 0x0F (be 2 i)

def itemBytes : Item → Bytes
  | .es e => esBytes e
  | .inc id => incBytes id
  | .ref i => refBytes i
  | .child c => childBytes c

/-- A URL with its length, if there is one. -/
def urlBytes (url : Bytes) : Bytes := if url = [] then [] else be 1 url.length ++ url

/-- The descriptors inside, in the order in which they are written. -/
def Od.items (d : Od) : List Item :=
  d.es.map .es ++ (d.inc.map .inc ++ (d.ref.map .ref ++ (d.oci.map (fun x => .child (.plain x)) ++
    (d.ptr.map (fun p => .child (.ptr p)) ++ d.ext))))

/-- ID in ten bits, flag for a URL, five reserved bits. -/
def odPayload (d : Od) : Bytes :=
  be 2 (d.id * 64 + (if d.url = [] then 0 else 32) + 31) ++ (urlBytes d.url ++ d.items.flatMap itemBytes)

def odBytes (d : Od) : Bytes := descr 4 d.tag (odPayload d)

def profileBytes (p : Profiles) : Bytes := be 1 p.od ++ (be 1 p.scene ++ (be 1 p.audio ++ (be 1 p.visual ++ be 1 p.graphics)))

def Iod.items (d : Iod) : List Item :=
  d.es.map .es ++ (d.inc.map .inc ++ (d.oci.map (fun x => .child (.plain x)) ++
    (d.ptr.map (fun p => .child (.ptr p)) ++ d.ext)))

/-- ID in ten bits, flags for a URL and for inline profiles, four reserved bits. -/
def iodHead (d : Iod) : Bytes :=
  be 2 (d.id * 64 + (if d.url = [] then 0 else 32) + (if d.inline = 0 then 0 else 16) + 15)

/-- With a URL there are only the extensions. -/
def iodPayload (d : Iod) : Bytes :=
  iodHead d ++ (if d.url = [] then profileBytes d.profiles ++ d.items.flatMap itemBytes
    else urlBytes d.url ++ d.ext.flatMap itemBytes)

def iodBytes (d : Iod) : Bytes := descr 4 d.tag (iodPayload d)

def anyBytes : Any → Bytes
  | .od d => odBytes d
  | .iod d => iodBytes d
  | .item i => itemBytes i

def cmdPayload : Cmd → Bytes
  | .odUpdate ods ext => ods.flatMap odBytes ++ ext.flatMap anyBytes
  | .esUpdate id es ref ext => be 2 (id * 64) ++ (es.flatMap esBytes ++ (ref.flatMap refBytes ++ ext.flatMap anyBytes))
  | .plain d => d.data

def cmdTag : Cmd → Nat
  | .odUpdate _ _ => 1
  | .esUpdate _ _ _ _ => 3
  | .plain d => d.tag

def cmdBytes (c : Cmd) : Bytes := descr 4 (cmdTag c) (cmdPayload c)

/-! ## What can be represented -/

/-- `oci` from the tag 0x40 to 0x5F. -/
def Oci (tag : Nat) : Prop := 0x40 ≤ tag ∧ tag ≤ 0x5F

def ItemOk : Item → Prop
  | .es e => EsOk e
  | .inc id => id < 2 ^ 32
  | .ref i => i < 2 ^ 16
  | .child c => ChildOk c

/-- An extension: none of the classes that have a list of their own, and no object content
information. -/
def OdExt : Item → Prop
  | .es _ | .inc _ | .ref _ | .child (.ptr _) => False
  | .child (.plain x) => ¬ Oci x.tag
  | .child _ => True

/-- In an initial object descriptor a reference is an extension. -/
def IodExt : Item → Prop
  | .es _ | .inc _ | .child (.ptr _) => False
  | .child (.plain x) => ¬ Oci x.tag
  | .ref _ | .child _ => True

structure OdOk (d : Od) : Prop where
  tag : d.tag = 0x01 ∨ d.tag = 0x11
  id : d.id < 2 ^ 10
  url : d.url.length < 2 ^ 8
  items : ∀ i ∈ d.items, ItemOk i
  oci : ∀ x ∈ d.oci, Oci x.tag
  ext : ∀ i ∈ d.ext, OdExt i

structure IodOk (d : Iod) : Prop where
  tag : d.tag = 0x02 ∨ d.tag = 0x10
  id : d.id < 2 ^ 10
  inline : d.inline < 2
  url : d.url.length < 2 ^ 8
  profiles : d.profiles.od < 2 ^ 8 ∧ d.profiles.scene < 2 ^ 8 ∧ d.profiles.audio < 2 ^ 8 ∧ d.profiles.visual < 2 ^ 8 ∧
    d.profiles.graphics < 2 ^ 8
  items : ∀ i ∈ d.items, ItemOk i
  oci : ∀ x ∈ d.oci, Oci x.tag
  ext : ∀ i ∈ d.ext, IodExt i

def AnyOk : Any → Prop
  | .od d => OdOk d
  | .iod d => IodOk d
  | .item i => ItemOk i

/-- What is read when a descriptor was written: the tags of the file format are replaced by one of
each kind, and with a URL an initial object descriptor keeps only its extensions. -/
def readOd (d : Od) : Od := { d with tag := 0x01 }

def readIod (d : Iod) : Iod :=
  if d.url = [] then { d with tag := 0x10 }
  else { d with tag := 0x10, profiles := ⟨0, 0, 0, 0, 0⟩, es := [], inc := [], oci := [], ptr := [] }

def readAny : Any → Any
  | .od d => .od (readOd d)
  | .iod d => .iod (readIod d)
  | .item i => .item i

def CmdOk : Cmd → Prop
  | .odUpdate ods ext => (∀ d ∈ ods, OdOk d) ∧ (∀ a ∈ ext, AnyOk a ∧ ∀ d, a ≠ .od d)
  | .esUpdate id es ref ext => id < 2 ^ 10 ∧ (∀ e ∈ es, EsOk e) ∧ (∀ i ∈ ref, i < 2 ^ 16) ∧
      ∀ a ∈ ext, AnyOk a ∧ (∀ e, a ≠ .item (.es e)) ∧ ∀ i, a ≠ .item (.ref i)
  | .plain d => d.tag < 256 ∧ d.tag ≠ 1 ∧ d.tag ≠ 3 ∧ d.tag ≠ 9

def readCmd : Cmd → Cmd
  | .odUpdate ods ext => .odUpdate (ods.map readOd) (ext.map readAny)
  | .esUpdate id es ref ext => .esUpdate id es ref (ext.map readAny)
  | .plain d => .plain d

end Verif.Od
