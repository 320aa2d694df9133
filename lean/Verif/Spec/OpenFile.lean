import Verif.Model.OpenFile
import Verif.Lemmas.Box

/-!
# What a file is: boxes one after another
-/

namespace Verif.OpenFile

/-- A box of a file: its type, whether its size is written in 64 bits, what follows the header, and (other than for media data) what its class makes of it. -/
structure Box (α : Type) where
  type : Nat
  long : Bool
  payload : Bytes
  value : α
  deriving DecidableEq

/-- The length of the header. -/
def Box.head {α : Type} (b : Box α) : Nat := if b.long then 16 else 8

/-- The header as read. -/
def Box.hdr {α : Type} (b : Box α) : Hdr :=
  if b.long then ⟨1, b.type, [], 16 + b.payload.length, 16⟩ else ⟨8 + b.payload.length, b.type, [], 0, 8⟩

/-- The bytes of the box. -/
def Box.wire {α : Type} (b : Box α) : Bytes :=
  (if b.long then be 4 1 ++ be 4 b.type ++ be 8 (16 + b.payload.length) else be 4 (8 + b.payload.length) ++ be 4 b.type) ++ b.payload

/-- The bytes of a last box with size 0, "to the end of the file". -/
def Box.open {α : Type} (b : Box α) : Bytes := be 4 0 ++ be 4 b.type ++ b.payload

/-- The sizes fit, and if the box is not media data its class reads the payload. -/
structure Box.Good {α : Type} (K : Kinds α) (b : Box α) : Prop where
  size : if b.long then 16 + b.payload.length < 2 ^ 64 else 8 + b.payload.length < 2 ^ 32
  type : b.type < 2 ^ 32
  plain : b.type ≠ fcc 'u' 'u' 'i' 'd'
  reads : b.type ≠ fcc 'm' 'd' 'a' 't' → ParsesAt (K.read b.hdr) b.head b.payload b.value

def fileOf {α : Type} (bs : List (Box α)) : Bytes := bs.flatMap Box.wire

/-- The boxes with their places, the first of which is `pos`. -/
def placed {α : Type} : Nat → List (Box α) → List (Nat × Box α)
  | _, [] => []
  | pos, b :: bs => (pos, b) :: placed (pos + b.wire.length) bs

/-- The box of a type of which there is one. -/
def the {α : Type} (type : Nat) (bs : List (Box α)) : Option α := (bs.find? fun b => b.type = type).map (·.value)

/-- Media data that is kept: some, and less than 2 GiB. -/
def dataOf {α : Type} (x : Nat × Box α) : Option Mdat.T :=
  if x.2.type = fcc 'm' 'd' 'a' 't' ∧ x.2.payload ≠ [] ∧ x.2.payload.length < 2 ^ 31 then
    some ⟨some x.2.payload, x.2.payload.length, x.2.payload.length, x.1 + x.2.head⟩
  else none

def fragmentOf {α : Type} (x : Nat × Box α) : Option (Nat × α) :=
  if x.2.type = fcc 'm' 'o' 'o' 'f' then some (x.1, x.2.value) else none

/-- What is found in a file with these boxes. -/
def meaning {α : Type} (inPlace : Bool) (bs : List (Box α)) : Boxes α where
  moov := the (fcc 'm' 'o' 'o' 'v') bs
  ftyp := the (fcc 'f' 't' 'y' 'p') bs
  sgnt := the (fcc 'j' 'P' ' ' ' ') bs
  jp2h := the (fcc 'j' 'p' '2' 'h') bs
  info := the (fcc 'm' 'e' 't' 'a') bs
  meco := the (fcc 'm' 'e' 'c' 'o') bs
  mdats := if inPlace then [] else (placed 0 bs).filterMap dataOf
  moofs := (placed 0 bs).filterMap fragmentOf

/-- The types of boxes of which a file has one at most. -/
def singles : List Nat :=
  [fcc 'm' 'o' 'o' 'v', fcc 'f' 't' 'y' 'p', fcc 'j' 'P' ' ' ' ', fcc 'j' 'p' '2' 'h', fcc 'm' 'e' 't' 'a', fcc 'm' 'e' 'c' 'o']

/-- Each of them once at most. -/
def Once {α : Type} (bs : List (Box α)) : Prop := bs.Pairwise fun a b => a.type = b.type → a.type ∉ singles

/-- The fragments joined to the movie, one after the other. -/
def joined {α : Type} (K : Kinds α) : List (Nat × α) → α → Res α
  | [], m => .ok m
  | x :: xs, m => (K.join x.1 x.2 m).bind (joined K xs)

/-- All fragments have numbers, and these increase. -/
def Numbered {α : Type} (K : Kinds α) (xs : List (Nat × α)) : Prop := ∃ ns : List Nat, xs.map (fun x => K.number x.2) = ns.map some ∧ ns.Pairwise (· < ·)

end Verif.OpenFile
