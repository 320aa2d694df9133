import Verif.Model.Mebx
import Verif.Spec.Entries

/-!
# Boxed metadata: what is on the wire, and what a caller can expect
-/

namespace Verif.Meb

open Verif.Ent

variable {α : Type}

/-- One kind of metadata: the number of its key in the samples, the namespace and the value of its key, and the texts that
the table may have for it. -/
structure Row where
  id : Nat
  ns : Nat
  value : Bytes
  locale : Option Bytes
  setup : Option Bytes
  deriving DecidableEq, Repr

/-- ISO/IEC 14496-12, 12.9.4: the box of a key, whose type is the number, with the declaration, the locale and the setup. -/
def Row.wire (x : Row) : Bytes :=
  box x.id (box (fcc 'k' 'e' 'y' 'd') (be 4 x.ns ++ x.value) ++
    ((x.locale.toList.flatMap fun t => box (fcc 'l' 'o' 'c' 'a') (t ++ [0])) ++
      x.setup.toList.flatMap fun d => box (fcc 's' 'e' 't' 'u') d))

def rowsWire (xs : List Row) : Bytes := xs.flatMap Row.wire

/-- ISO/IEC 14496-12, 12.9.3: the entry with its table of keys. -/
def entryWire (dref : Nat) (xs : List Row) : Bytes :=
  box (fcc 'm' 'e' 'b' 'x') (headWire [0, 0, 0, 0, 0, 0] dref ++ box (fcc 'k' 'e' 'y' 's') (rowsWire xs))

/-- The namespaces of four-character keys. -/
def FourCC (ns : Nat) : Prop := ns = fcc 'm' 'e' '4' 'c' ∨ ns = fcc 'u' 'i' 's' 'o'

/-- What the standard allows: a number that is a type of a box, four bytes of value in the namespaces of four-character
keys; and no text is empty. -/
structure Row.Fits (x : Row) : Prop where
  id : GoodType x.id
  ns : x.ns < 4294967296
  value : FourCC x.ns → x.value.length = 4
  locale : ∀ t ∈ x.locale, t ≠ [] ∧ ∀ b ∈ t, b ≠ 0

/-- What the table in memory has for a row. -/
def Row.key (x : Row) : Key α :=
  ⟨x.id, .keyd ⟨x.ns, x.value⟩ :: ((x.locale.toList.map fun t => Sub.loca (some (t ++ [0]))) ++ x.setup.toList.map Sub.setu)⟩

/-- The entry in memory that has the rows. -/
def entryOf (dref : Nat) (xs : List Row) : Entry Bool (Bx α) :=
  ⟨fcc 'm' 'e' 'b' 'x', [0, 0, 0, 0, 0, 0], dref, true, [.keys (xs.map Row.key)]⟩

/-- What is asked for. -/
structure Request where
  desired : Nat
  ns : Nat
  value : Option Bytes
  locale : Option Bytes
  setup : Option Bytes
  deriving DecidableEq, Repr

/-- The value of the key, which for a four-character key need not be given. -/
def Request.content (r : Request) : Bytes := r.value.getD (be 4 r.desired)

/-- What the interface allows: in the namespaces of four-character keys the value is the number itself, others have a
value; the setup is not empty and none is given in the namespace `uiso`. -/
structure Request.Fine (r : Request) : Prop where
  four : FourCC r.ns → r.content = be 4 r.desired
  other : ¬ FourCC r.ns → ∃ v, r.value = some v ∧ v ≠ []
  setup : ∀ d ∈ r.setup, d ≠ [] ∧ r.ns ≠ fcc 'u' 'i' 's' 'o'

/-- The number is the first from the desired one on that is not used. -/
structure Free (used : List Nat) (desired n : Nat) : Prop where
  from_ : desired ≤ n
  below : n < 4294967295
  unused : n ∉ used
  first : ∀ m, desired ≤ m → m < n → m ∈ used

/-- The row for a request. -/
def Request.row (r : Request) (n : Nat) : Row := ⟨n, r.ns, r.content, r.locale, r.setup⟩

def Request.add (r : Request) (e : Entry Bool (Bx α)) : Res (Nat × Entry Bool (Bx α)) :=
  addMeta r.desired r.ns r.value r.locale r.setup e

/-- None of the last three bytes of a number has its upper bit set. -/
def Seven (n : Nat) : Prop := n / 65536 % 256 < 128 ∧ n / 256 % 256 < 128 ∧ n % 256 < 128

instance (n : Nat) : Decidable (Seven n) := inferInstanceAs (Decidable (_ ∧ _))

/-- A sample: boxes, each with the number of its key. -/
def sampleWire (xs : List (Nat × Bytes)) : Bytes := xs.flatMap fun x => box x.1 x.2

def SampleFits (xs : List (Nat × Bytes)) : Prop := ∀ x ∈ xs, x.1 < 4294967296 ∧ 8 + x.2.length < 4294967296

/-- The last box of a key in the sample. -/
def lastOf (key : Nat) (xs : List (Nat × Bytes)) : Option Bytes := ((xs.filter fun x => x.1 = key).getLast?).map (·.2)

/-- The keys of QuickTime: a number for version and flags, how many, and for each a size, a namespace and a value. -/
def qtWire (xs : List (Nat × Bytes)) : Bytes := be 4 0 ++ (be 4 xs.length ++ xs.flatMap fun x => box x.1 x.2)

/-- Not more than one declaration, one locale and one setup. -/
def Once (l : List (Sub α)) : Prop :=
  (l.filterMap Sub.keyd?).length ≤ 1 ∧ (l.filterMap Sub.loca?).length ≤ 1 ∧ (l.filterMap Sub.setu?).length ≤ 1

instance (l : List (Sub α)) : Decidable (Once l) := inferInstanceAs (Decidable (_ ∧ _))

/-- The numbers of keys. -/
def ids (l : List (Key α)) : List Nat := l.map (·.id)

/-- The rows that requests get, one after the other. -/
inductive Placed : List Request → List Row → Prop
  | nil : Placed [] []
  | snoc {rs xs r n} : Placed rs xs → Free (xs.map (·.id)) r.desired n → Placed (rs ++ [r]) (xs ++ [r.row n])

/-- The requests one after the other, with the numbers that are given. -/
def addMany : List Request → Entry Bool (Bx α) → Res (List Nat × Entry Bool (Bx α))
  | [], e => .ok ([], e)
  | r :: rs, e => do
    let (n, e) ← r.add e
    let (ns, e) ← addMany rs e
    .ok (n :: ns, e)

/-- What a caller reads about a row. -/
def Row.conf (x : Row) : Conf := ⟨x.id, x.ns, x.value, x.locale.map fun t => some (t ++ [0]), x.setup⟩

/-- The size that the library computes for a row: no NUL is counted for an empty locale. -/
def Row.bytes (x : Row) : Nat :=
  20 + x.value.length + (x.locale.elim 0 fun t => if t = [] then 8 else 9 + t.length) + x.setup.elim 0 fun d => 8 + d.length

end Verif.Meb
