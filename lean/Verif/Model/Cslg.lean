import Verif.Model.Ctts
import Verif.Model.Stts

/-!
# Composition to decode: CompositionToDecodeAtom.c, its use in SampleTableAtom.c and
MovieExtendsAtom.c

Fields are `s32` and are kept as integers; the offsets and durations in the handles are 32-bit patterns.
The running `s64` total is not reduced: it would take more than 2^32 samples to overflow it.
-/

namespace Verif.Cslg

/-- `MP4CompositionToDecodeAtom`: MP4Atoms.h 815-826. -/
structure Cslg where
  shift : Int
  least : Int
  greatest : Int
  start : Int
  stop : Int
  total : Int
  deriving DecidableEq, Repr

/-- `MP4CreateCompositionToDecodeAtom`: CompositionToDecodeAtom.c 167-197. -/
def create : Cslg := ⟨0, 2147483647, -2147483648, 2147483647, -2147483648, 0⟩

/-- One turn of the loop of `updateFields`: CompositionToDecodeAtom.c 98-122. Negating the least `s32`
is undefined; a time is cut to 32 bits when it is stored. -/
def step (c : Cslg) (duration offset : Int) : Res Cslg :=
  let least := if offset < c.least then offset else c.least
  let greatest := if offset > c.greatest then offset else c.greatest
  if least = -2147483648 then .ub
  else
    let shift := if least < 0 then -1 * least else c.shift
    let start := if c.total + offset < c.start then s32 (u32i (c.total + offset)) else c.start
    let stop := if c.total + offset > c.stop then s32 (u32i (c.total + offset)) else c.stop
    .ok ⟨shift, least, greatest, start, stop, c.total + duration⟩

/-- The value used for each of `n` samples: the only one, or one per sample. -/
def pick (n : Nat) (xs : List Nat) : List Int :=
  match xs with
  | [x] => List.replicate n (s32 x)
  | _ => xs.map s32

/-- The loop of `updateFields`, lines 98-122. -/
def loop : List (Int × Int) → Cslg → Res Cslg
  | [], c => .ok c
  | (d, o) :: rest, c => (step c d o).bind (loop rest)

/-- `updateFields`: CompositionToDecodeAtom.c 62-128. -/
def updateFields (c : Cslg) (n : Nat) (durs offs : List Nat) : Res Cslg :=
  if offs.length ≠ 1 ∧ offs.length ≠ n then .err .badParam
  else if durs.length ≠ 1 ∧ durs.length ≠ n then .err .badParam
  else loop (List.zip (pick n durs) (pick n offs)) c

/-- The part of a sample table that matters here: the count of `stsz`, the entries of `stts`, the
`ctts` box and its version, the `cslg` box, and the flag set by the client. -/
structure St where
  samples : Nat
  stts : List (Nat × Nat)
  ctts : Option Ctts.Ctts
  version : Nat
  cslg : Option Cslg
  signed : Bool
  deriving DecidableEq, Repr

def empty : St := ⟨0, [], none, 0, none, false⟩

/-- `MP4UseSignedCompositionTimeOffsets`: MP4Media.c 1085-1113. -/
def useSigned (s : St) : St := { s with signed := true }

/-- Lines 297-319: the boxes are created with the first offsets. -/
def makeBoxes (s : St) : St :=
  match s.ctts with
  | some _ => s
  | none =>
    if s.signed then { s with ctts := some Ctts.create, version := 1, cslg := some create }
    else { s with ctts := some Ctts.create, version := 0 }

/-- The steps of `addSamples`, SampleTableAtom.c 255-430, that concern times (lines 297-319, 345-359, and
the sample count of line 399). The error of `updateFields` is dropped: its result is not assigned. -/
def tableAdd (s : St) (n : Nat) (durs : List Nat) (offs : Option (List Nat)) : Res St :=
  match offs with
  | none => (Stts.addSamples s.stts n durs).bind fun es =>
      .ok { s with samples := w32(s.samples + n), stts := es }
  | some os =>
    let s1 := makeBoxes s
    (Stts.addSamples s1.stts n durs).bind fun es =>
    (Ctts.addSamples (s1.ctts.getD Ctts.create) w32(s1.samples + 1) n os).bind fun t =>
    if s1.signed then
      match s1.cslg with
      | none => .ub
      | some c =>
        match updateFields c n durs os with
        | .ok c' => .ok ⟨w32(s1.samples + n), es, some t, s1.version, some c', s1.signed⟩
        | .err _ => .ok ⟨w32(s1.samples + n), es, some t, s1.version, some c, s1.signed⟩
        | .ub => .ub
    else .ok ⟨w32(s1.samples + n), es, some t, s1.version, s1.cslg, s1.signed⟩

/-! ## The box -/

/-- `'cslg'` -/
def typeCslg : Nat := 0x63736c67

/-- `serialize`: CompositionToDecodeAtom.c 40-60; the size, lines 130-143. -/
def serialize (version flags : Nat) (c : Cslg) : W :=
  serFull w32(12 + 20) typeCslg version flags ;; put32 (u32i c.shift) ;; put32 (u32i c.least) ;;
  put32 (u32i c.greatest) ;; put32 (u32i c.start) ;; put32 (u32i c.stop) ;; W.assertFull

/-- `createFromInputStream`: CompositionToDecodeAtom.c 145-165; the running total stays 0. -/
def parseBody (h : Hdr) : P ((Nat × Nat) × Cslg) := do
  let vf ← getVersionFlags
  let shift ← get32
  let least ← get32
  let greatest ← get32
  let start ← get32
  let stop ← get32
  let r ← P.bytesRead
  if r ≠ h.size then P.bad else pure (vf, ⟨s32 shift, s32 least, s32 greatest, s32 start, s32 stop, 0⟩)

/-! ## Properties of the fragments of a track -/

/-- A box in a track extension properties box: `cslg`, or another type. -/
inductive Inner where
  | cslg (c : Cslg)
  | other (type : Nat)
  deriving DecidableEq, Repr

/-- A box in one of the two lists of a `MP4MovieExtendsAtom`, with its track. -/
inductive Child where
  | trex (track : Nat)
  | trep (track : Nat) (atoms : List Inner)
  deriving DecidableEq, Repr

/-- `MP4MovieExtendsAtom`: `trackExtendsList` and `trackExtensionPropertiesList`. -/
structure Mvex where
  extends_ : List Child
  props : List Child
  deriving DecidableEq, Repr

/-- `addAtom`: MovieExtendsAtom.c 87-109, which adds by type. -/
def Mvex.addAtom (m : Mvex) (c : Child) : Mvex :=
  match c with
  | .trex _ => { m with extends_ := m.extends_ ++ [c] }
  | .trep _ _ => { m with props := m.props ++ [c] }

/-- The loop of `getTrackExtensionPropertiesAtom`, MovieExtendsAtom.c 273-286, from index `i`, with `n`
turns left. It takes as many turns as there are properties boxes but reads the other list. A wrong index ends
it, with an error its caller ignores. -/
def trepLoop (track : Nat) (boxes : List Child) : Nat → Nat → Option Nat
  | 0, _ => none
  | n + 1, i =>
    match boxes[i]? with
    | none => none
    | some (.trep t _) => if t = track then some i else trepLoop track boxes n (i + 1)
    | some (.trex _) => trepLoop track boxes n (i + 1)

/-- `getTrackExtensionPropertiesAtom`: MovieExtendsAtom.c 265-290: the index, in `trackExtendsList`. -/
def getTrep (m : Mvex) (track : Nat) : Option Nat := trepLoop track m.extends_ m.props.length 0

/-- `getAtom` for `cslg` in a `trep` box (TrackExtensionPropertiesAtom.c 39-63), and the assignments through
the pointer it returns; a new box is added when there is none. -/
def putCslg (c : Cslg) : List Inner → List Inner
  | [] => [.cslg c]
  | .cslg _ :: ps => .cslg c :: ps
  | .other t :: ps => .other t :: putCslg c ps

/-- `setCompositionToDecodeProperties`: MovieExtendsAtom.c 111-163. -/
def setProps (m : Mvex) (track : Nat) (c : Cslg) : Mvex :=
  match getTrep m track with
  | none => m.addAtom (.trep track (putCslg c []))
  | some i => { m with extends_ := m.extends_.modify i fun b =>
      match b with
      | .trep t ps => .trep t (putCslg c ps)
      | .trex t => .trex t }

end Verif.Cslg
