import Verif.Core.Box

/-!
# Sequence numbers of movie fragments
MP4MovieFile.c, MP4Movies.c, MovieFragmentHeaderAtom.c
-/

namespace Verif.FragSeq

/-- What `movie->moovAtomPtr` is: the movie box, or the fragment being made, with the number in its
header (`u32`). -/
inductive Cur
  | moov
  | moof (seq : Nat)
  deriving DecidableEq, Repr

/-- `ISOStartMovieFragment`: MP4MovieFile.c 340-422. `refused` is the file type for which it is not
implemented, `mvex` whether the movie has the movie extends box. Writing what there is so far
(`LocalPutMovieIntoHandle`) is in Model/Movie; it is taken to succeed. -/
def start (refused mvex : Bool) (c : Cur) : Res Cur :=
  if refused then .err .notImplemented
  else if !mvex then .err .badParam
  else match c with
    | .moov => .ok (.moof 1)
    | .moof seq => .ok (.moof w32(seq + 1))

/-- A parsed fragment: the number in its header, if it has one, and the rest. -/
structure Fragment (α : Type) where
  mfhd : Option Nat
  rest : α
  deriving DecidableEq, Repr

/-- The loop of `MergeMovieFragments`: MP4Movies.c 248-269. `prev` is `seq`, `none` in the first round.
`f` is `mergeFragments`. -/
def mergeLoop {α σ : Type} (f : α → σ → Res σ) : Option Nat → List (Fragment α) → σ → Res σ
  | _, [], s => .ok s
  | prev, m :: ms, s =>
    match m.mfhd with
    | none => .err .badData
    | some n =>
      match prev with
      | none => (f m.rest s).bind (mergeLoop f (some n) ms)
      | some p => if n ≤ p then .err .badData else (f m.rest s).bind (mergeLoop f (some n) ms)

/-- `MergeMovieFragments`: MP4Movies.c 238-277, without the duration. -/
def merge {α σ : Type} (f : α → σ → Res σ) (ms : List (Fragment α)) (s : σ) : Res σ := mergeLoop f none ms s

/-! ## The header -/

structure Mfhd where
  version : Nat
  flags : Nat
  seq : Nat
  deriving DecidableEq, Repr

def typeMfhd : Nat := 0x6d666864

/-- `serialize` and `calculateSize`: MovieFragmentHeaderAtom.c 36-66. -/
def mfhdSerialize (h : Mfhd) : W := serFull 16 typeMfhd h.version h.flags ;; put32 h.seq ;; W.assertFull

/-- `createFromInputStream`: MovieFragmentHeaderAtom.c 68-84. -/
def mfhdParse (_ : Hdr) : P Mfhd := do
  let vf ← getVersionFlags
  let n ← get32
  pure ⟨vf.1, vf.2, n⟩

end Verif.FragSeq
