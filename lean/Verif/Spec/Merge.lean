import Verif.Model.Merge
import Verif.Spec.Rle

/-!
# C54: what merging fragments into a track should give
-/

namespace Verif.Merge

open Traf (Entry Run Tfhd)

/-- A run: where its data begins, its samples, and whether it states composition offsets. -/
structure Piece where
  place : Nat
  entries : List Entry
  offs : Bool

/-- The samples of a run with the defaults of the header filled in (C28: these are the samples that were
put into the fragment before it was written). -/
def piece (h : Tfhd) (r : Run) : Piece :=
  match Traf.mergeRun h r with
  | .ok (p, es) => ⟨p, es, r.flags &&& 0x800 != 0⟩
  | _ => ⟨0, [], false⟩

def Frag.pieces (f : Frag) : List Piece := f.runs.map fun r => piece f.tfhd r.2

/-- The data of the samples of a run lies one after the other. -/
def spread : Nat → List Entry → List (Nat × Entry)
  | _, [] => []
  | p, e :: es => (p, e) :: spread (p + e.size) es

/-- All samples, with the places of their data. -/
def samplesOf (ps : List Piece) : List (Nat × Entry) := ps.flatMap fun p => spread p.place p.entries

/-- A fragment with a decode time starts then: the last sample before it lasts until that time. -/
def lengthen (D : List Nat) : Option Nat → List Nat
  | none => D
  | some t => match D.getLast? with
    | none => D
    | some d => D.dropLast ++ [d + (t - D.sum)]

/-- The durations after merging one more fragment. -/
def after (D : List Nat) (f : Frag) : List Nat :=
  lengthen D f.time ++ f.pieces.flatMap fun p => p.entries.map Entry.duration

/-- The decode time of each fragment is not before the end of the fragments so far, and there is something
before it unless it is 0. -/
def TimesOK : List Nat → List Frag → Prop
  | _, [] => True
  | D, f :: fs => (∀ t, f.time = some t → D.sum ≤ t ∧ (D = [] → t = 0)) ∧ TimesOK (after D f) fs

/-- Bit 16 of the flags: not a sync sample. Bits 17 to 19: padding. Bits 20 to 25: dependencies. -/
def isSync (e : Entry) : Bool := !e.flags.testBit 16
def padding (e : Entry) : Nat := e.flags / 2 ^ 17 % 8
def dependency (e : Entry) : Nat := e.flags / 2 ^ 20 % 64

/-- The limits and the restrictions that the code needs. -/
structure Fits (ps : List Piece) : Prop where
  nonempty : ∀ p ∈ ps, p.entries ≠ []
  data : ∀ p ∈ ps, (p.entries.map Entry.size).sum < 2 ^ 32 ∧ p.place + (p.entries.map Entry.size).sum < 2 ^ 64
  samples : (ps.flatMap Piece.entries).length + 1 < 1073739776
  runs : ps.length + 2 < 536869888
  /-- A run without composition offsets has them 0. -/
  zero : ∀ p ∈ ps, p.offs = false → ∀ e ∈ p.entries, e.offset = 0
  /-- Restriction: the first run states composition offsets, or none does. -/
  offs : (∀ p, ps.head? = some p → p.offs = true) ∨ ∀ p ∈ ps, p.offs = false
  /-- Restriction: after a run with a sample that is not a sync sample, every run has one. -/
  sync : ps.Pairwise fun a b => (∃ e ∈ a.entries, isSync e = false) → ∃ e ∈ b.entries, isSync e = false
  /-- Restriction: the first run has samples of different sizes or of size 0, or all samples have the
  same size. -/
  sizes : (∀ p, ps.head? = some p → ∃ a ∈ p.entries, ∃ b ∈ p.entries, a.size = 0 ∨ a.size ≠ b.size) ∨
    ∀ a ∈ ps.flatMap Piece.entries, ∀ b ∈ ps.flatMap Piece.entries, a.size = b.size

/-- What should be reported about sample `n` (from 0). Without any padding, 0xF8 is reported. -/
def expected (ps : List Piece) (D : List Nat) (n : Nat) (s : Nat × Entry) (d : Nat) : Info where
  place := s.1
  size := s.2.size
  dts := startOf D n
  offset := s.2.offset
  duration := d
  sync := isSync s.2
  pad := if (ps.flatMap Piece.entries).all fun e => padding e = 0 then 0xF8 else padding s.2
  dep := UInt8.ofNat (dependency s.2)
  desc := 1

end Verif.Merge
