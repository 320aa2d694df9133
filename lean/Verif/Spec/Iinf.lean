import Verif.Spec.Box

/-!
# Specification of item information
-/

namespace Verif.Iinf

/-- What else is known about an item. -/
inductive Kind where
  | plain
  | extension (type : Nat) (data : Bytes)
  | typed (type : Nat) (uri : Bytes)
  deriving DecidableEq, Repr

structure Info where
  name : Bytes
  protection : Nat
  kind : Kind
  hidden : Bool
  deriving DecidableEq, Repr

/-- The calls of an application. Strings are without their terminator. -/
inductive Call where
  | set (id protection : Nat) (name contentType contentEncoding : Option Bytes)
  | extend (id : Nat) (data : Bytes) (type : Nat)
  | type (id type : Nat) (uri : Option Bytes)
  | hide (id : Nat)
  deriving DecidableEq, Repr

/-- A string of C has no zero inside. -/
def Clean : Option Bytes → Prop
  | none => True
  | some s => 0 ∉ s

def Call.Clean : Call → Prop
  | .set _ _ n t e => Iinf.Clean n ∧ Iinf.Clean t ∧ Iinf.Clean e
  | .type _ _ u => Iinf.Clean u
  | _ => True

/-- No content type or encoding is given. -/
def Call.Bare : Call → Prop
  | .set _ _ _ t e => t = none ∧ e = none
  | _ => True

/-! ## What the application has said about each item -/

abbrev Known := Nat → Option Info

def Known.amend (m : Known) (id : Nat) (f : Info → Info) : Known := fun k => if k = id then (m id).map f else m k

/-- The effect of one call; `primary` is the primary item, which is never hidden. -/
def learn (primary : Nat) (m : Known) : Call → Known
  | .set id p name _ _ => fun k => if k = id then some ⟨name.getD [], p, .plain, false⟩ else m k
  | .extend id data type => m.amend id fun i => { i with kind := .extension type data }
  | .type id type uri => m.amend id fun i => { i with kind := .typed type (uri.getD []) }
  | .hide id => if id = primary then m else m.amend id fun i => { i with hidden := true }

def known (primary : Nat) (calls : List Call) : Known := calls.foldl (learn primary) fun _ => none

/-- The answers an application should get about an item of which `i` is known. -/
def extensionAnswer : Option Info → Res (Bytes × Nat)
  | none => .err .badParam
  | some i => match i.kind with
    | .extension t d => .ok (d, t)
    | _ => .err .invalidMedia

def typeAnswer : Option Info → Res (Nat × Option Bytes)
  | none => .err .badParam
  | some i => match i.kind with
    | .typed t u => .ok (t, some u)
    | _ => .err .invalidMedia

def hiddenAnswer : Option Info → Res Bool
  | none => .err .invalidMedia
  | some i => .ok i.hidden

/-! ## What a file holds -/

/-- One record for each time information was set; later calls change the newest record of the item. -/
def amendLast (id : Nat) (f : Info → Info) : List (Nat × Info) → List (Nat × Info)
  | [] => []
  | r :: l => if r.1 = id ∧ ∀ x ∈ l, x.1 ≠ id then (id, f r.2) :: l else r :: amendLast id f l

def record (primary : Nat) (l : List (Nat × Info)) : Call → List (Nat × Info)
  | .set id p name _ _ => l ++ [(id, ⟨name.getD [], p, .plain, false⟩)]
  | .extend id data type => amendLast id (fun i => { i with kind := .extension type data }) l
  | .type id type uri => amendLast id (fun i => { i with kind := .typed type (uri.getD []) }) l
  | .hide id => if id = primary then l else amendLast id (fun i => { i with hidden := true }) l

def records (primary : Nat) (calls : List Call) : List (Nat × Info) := calls.foldl (record primary) []

def mime : Nat := fcc 'm' 'i' 'm' 'e'
def uriType : Nat := fcc 'u' 'r' 'i' ' '

/-- What stands behind the name in an entry, without content type and encoding. -/
def tailBytes : Kind → Bytes
  | .plain => [0, 0]
  | .extension type data => [0, 0] ++ be 4 type ++ data
  | .typed type uri => if type = mime then [0, 0] else if type = uriType then uri ++ [0] else []

def versionOf : Kind → Nat
  | .plain => 0
  | .extension _ _ => 1
  | .typed _ _ => 2

def typeBytes : Kind → Bytes
  | .typed type _ => be 4 type
  | _ => []

/-- The `infe` box of a record. -/
def layoutEntry (r : Nat × Info) : Bytes :=
  fullBox (fcc 'i' 'n' 'f' 'e') (versionOf r.2.kind) (if r.2.hidden then 1 else 0)
    (be 2 r.1 ++ be 2 r.2.protection ++ typeBytes r.2.kind ++ r.2.name ++ [0] ++ tailBytes r.2.kind)

/-- An entry with content type and encoding, of version 0 or of version 2 and type `mime`. -/
def mimeBytes (typed : Bool) (flags id p : Nat) (name type enc : Bytes) : Bytes :=
  fullBox (fcc 'i' 'n' 'f' 'e') (if typed then 2 else 0) flags
    (be 2 id ++ be 2 p ++ (if typed then be 4 mime else []) ++ name ++ [0] ++ type ++ [0] ++ enc ++ [0])

/-- The `iinf` box. -/
def layout (l : List (Nat × Info)) : Bytes :=
  fullBox (fcc 'i' 'i' 'n' 'f') 0 0 (be 2 l.length ++ l.flatMap layoutEntry)

/-- Values in the range of their fields, and strings that fit the buffer of the reader. -/
structure Fits (l : List (Nat × Info)) : Prop where
  count : l.length < 65536
  id : ∀ r ∈ l, r.1 < 65536
  protection : ∀ r ∈ l, r.2.protection < 65536
  type : ∀ r ∈ l, ∀ t u, r.2.kind = .typed t u → t < 2 ^ 32
  ext : ∀ r ∈ l, ∀ t d, r.2.kind = .extension t d → 0 < t ∧ t < 2 ^ 32
  buffer : ∀ r ∈ l, r.2.name.length + 1 + (tailBytes r.2.kind).length ≤ 4096
  size : (layout l).length < 2 ^ 32

/-- The bytes of a `u32` in the opposite order. -/
def swap (v : Nat) : Nat := unbe (be 4 v).reverse

/-- What comes back from a file: a `u32` that was copied from the file without regard to the order of its
bytes, and URIs only for items of type `uri `. -/
def storedExtension : Option Info → Res (Bytes × Nat)
  | none => .err .badParam
  | some i => match i.kind with
    | .extension t d => .ok (d, swap t)
    | _ => .err .invalidMedia

def storedType : Option Info → Res (Nat × Option Bytes)
  | none => .err .badParam
  | some i => match i.kind with
    | .typed t u => .ok (t, if t = uriType then some u else none)
    | _ => .err .invalidMedia

/-- The item of the first record with the name. -/
def named (l : List (Nat × Info)) (name : Bytes) : Res Nat :=
  match l.find? fun r => r.2.name == name with
  | some r => .ok r.1
  | none => .err .notFound

end Verif.Iinf
