import Verif.Model.Tree

/-!
# How boxes lie in a file

`Laid` is a tree of boxes as bytes, independent of the code under study: each box is a 32-bit size, a type, 16
more bytes of type if the type is `uuid`, and a payload, which for a container is the boxes it contains. The
size is the length of the box, or 0 for a box that reaches to the end of the file.
-/

namespace Verif.Tree

/-- A type from its four characters. -/
def code (s : String) : Nat := s.toList.foldl (fun n c => n * 256 + c.toNat) 0

/-- The containers, and in each the sets of members of which only one may be there. -/
def containers : List (String × List (List String)) := [
  ("moov", [["mvhd"], ["iods"], ["udta"], ["meta"], ["meco"], ["mvex"]]),
  ("trak", [["tkhd"], ["edts"], ["mdia"], ["tref"], ["trgr"], ["udta"], ["meta"], ["meco"]]),
  ("edts", [["elst"]]),
  ("mdia", [["mdhd"], ["hdlr"], ["elng"], ["minf"]]),
  ("minf", [["vmhd", "smhd", "hmhd", "mdhd"], ["dinf"], ["stbl"]]),
  ("dinf", [["dref"]]),
  ("rinf", [["frma"], ["schm"], ["schi"]]),
  ("schi", []),
  ("ipco", []),
  ("jp2h", [["ihdr"], ["bpcc"], ["colr"]])]

def IsContainer (type : Nat) : Prop := ∃ c ∈ containers, code c.1 = type

/-- Free space. -/
def FreeSpace (type : Nat) : Prop := type = code "free" ∨ type = code "skip"

instance (type : Nat) : Decidable (FreeSpace type) := inferInstanceAs (Decidable (_ ∨ _))

/-- No two members of one set. -/
def Once (type : Nat) (members : List Nat) : Prop :=
  ∀ c ∈ containers, code c.1 = type → ∀ g ∈ c.2,
    (members.filter fun t => (g.map code).contains t).length ≤ 1

inductive Laid where
  | leaf (zero : Bool) (type : Nat) (uuid data : Bytes)
  | node (zero : Bool) (type : Nat) (children : List Laid)

def Laid.type : Laid → Nat
  | .leaf _ t _ _ => t
  | .node _ t _ => t

mutual

/-- The bytes of a box. -/
def wire : Laid → Bytes
  | .leaf zero type uuid data =>
    be 4 (if zero then 0 else 8 + uuid.length + data.length) ++ be 4 type ++ uuid ++ data
  | .node zero type cs => be 4 (if zero then 0 else 8 + (wires cs).length) ++ be 4 type ++ wires cs

def wires : List Laid → Bytes
  | [] => []
  | c :: cs => wire c ++ wires cs

end

mutual

/-- What a reader keeps: the tree, without free space inside containers. -/
def kept : Laid → Tree
  | .leaf _ type uuid data => .leaf type uuid data
  | .node _ type cs => .node type (keptAll cs)

def keptAll : List Laid → List Tree
  | [] => []
  | c :: cs => if FreeSpace c.type then keptAll cs else kept c :: keptAll cs

end

mutual

/-- Boxes as they should be. `last` says that the box is at the end of the file. -/
def Fit (last : Bool) : Laid → Prop
  | .leaf zero type uuid _ => type < 4294967296 ∧ ¬ IsContainer type ∧
    uuid.length = (if type = typeUuid then 16 else 0) ∧ (zero = true → last = true)
  | .node zero type cs => IsContainer type ∧
    Once type ((keptAll cs).map Tree.type) ∧ (zero = true → last = true) ∧ Fits last cs

def Fits (last : Bool) : List Laid → Prop
  | [] => True
  | c :: cs => Fit (last && cs.isEmpty) c ∧ Fits last cs

end

/-! ## Trees in memory -/

mutual

/-- The tree as boxes, every size given. -/
def lay : Tree → Laid
  | .leaf type uuid data => .leaf false type uuid data
  | .node type cs => .node false type (lays cs)

def lays : List Tree → List Laid
  | [] => []
  | c :: cs => lay c :: lays cs

end

mutual

/-- A tree that can be written. -/
def Sound : Tree → Prop
  | .leaf type uuid _ => 0 < type ∧ type < 4294967296 ∧ ¬ IsContainer type ∧
    uuid.length = (if type = typeUuid then 16 else 0)
  | .node type cs => IsContainer type ∧ Once type (cs.map Tree.type) ∧ Sounds cs

def Sounds : List Tree → Prop
  | [] => True
  | c :: cs => Sound c ∧ Sounds cs

end

mutual

/-- No free space inside containers. -/
def NoFree : Tree → Prop
  | .leaf .. => True
  | .node _ cs => NoFrees cs

def NoFrees : List Tree → Prop
  | [] => True
  | c :: cs => ¬ FreeSpace c.type ∧ NoFree c ∧ NoFrees cs

end

end Verif.Tree
