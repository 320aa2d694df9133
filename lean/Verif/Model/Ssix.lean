import Verif.Core.Box

/-!
# The subsegment index
SubsegmentIndexAtom.c
-/

namespace Verif.Ssix

def typeSsix : Nat := 0x73736978

/-- `SubsegmentRange`: MP4Atoms.h 2090-2095. -/
structure Range where
  level : Nat
  size : Nat
  deriving DecidableEq, Repr

/-- `Subsegment`: MP4Atoms.h 2097-2105; the count is kept beside the list. -/
structure Sub where
  count : Nat
  ranges : List Range
  deriving DecidableEq, Repr

/-- `MP4SubsegmentIndexAtom`: MP4Atoms.h 2144-2156; the count is kept beside the list. -/
structure Ssix where
  count : Nat
  subs : List Sub
  deriving DecidableEq, Repr

/-- `MP4CreateSubsegmentIndexAtom`: SubsegmentIndexAtom.c 259-292. -/
def create : Ssix := ⟨0, []⟩

/-- `getSubsegmentCount`: SubsegmentIndexAtom.c 36-41. -/
def getCount (x : Ssix) : Nat := x.subs.length

/-- `addSubsegment`: SubsegmentIndexAtom.c 43-55; the count is left as it is. -/
def addSubsegment (x : Ssix) (s : Sub) : Ssix := { x with subs := x.subs ++ [s] }

/-- `addSubsegmentRange`: SubsegmentIndexAtom.c 57-78; the count is left as it is. -/
def addRange (s : Sub) (level size : Nat) : Sub := { s with ranges := s.ranges ++ [⟨level, size⟩] }

/-- `calculateSize`: SubsegmentIndexAtom.c 182-209. The sum is kept in 32 bits. -/
def calcSize (x : Ssix) : Res Nat :=
  if x.subs.length < x.count then .err .badParam
  else .ok w32(16 + ((x.subs.take x.count).map fun s => 4 + 4 * s.count).sum)

/-- One range of the subsegment `s`, the `i`-th of the box: SubsegmentIndexAtom.c 163-174. The range is looked up with
the number of the subsegment, and its level is moved by 28 bits. -/
def putRange (i : Nat) (s : Sub) : W :=
  match s.ranges[i]? with
  | none => W.fail .badParam
  | some r => put32 (w32(r.level * 2 ^ 28) ||| r.size)

/-- One subsegment: SubsegmentIndexAtom.c 153-175. -/
def putSub (x : Ssix) (i : Nat) : W :=
  match x.subs[i]? with
  | none => W.fail .badParam
  | some s => put32 s.count ;; W.each (fun _ => putRange i s) (List.range s.count)

/-- `serialize`: SubsegmentIndexAtom.c 138-180; there is no assertion. -/
def serialize (size version flags : Nat) (x : Ssix) : W :=
  serFull size typeSsix version flags ;; put32 x.count ;; W.each (putSub x) (List.range x.count)

/-- One range: SubsegmentIndexAtom.c 238-247. -/
def getRange : P Range := do
  let v ← get32
  pure ⟨v / 2 ^ 24, v % 2 ^ 24⟩

/-- One subsegment: SubsegmentIndexAtom.c 226-251. -/
def getSub : P Sub := do
  let n ← get32
  let rs ← P.repeat n getRange
  pure ⟨n, rs⟩

/-- `createFromInputStream`: SubsegmentIndexAtom.c 211-257. -/
def parse (h : Hdr) : P ((Nat × Nat) × Ssix) := do
  let vf ← getVersionFlags
  let n ← get32
  let ss ← P.repeat n getSub
  let r ← P.bytesRead
  if r ≠ h.size then P.bad else pure (vf, ⟨n, ss⟩)

end Verif.Ssix
