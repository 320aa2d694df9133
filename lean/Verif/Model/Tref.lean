import Verif.Core.Box

/-!
# Track references
TrackReferenceTypeAtom.c, TrackReferenceAtom.c, MovieTracks.c
-/

namespace Verif.Tref

/-- `MP4TrackReferenceTypeAtom`: one type and the track IDs. -/
structure Ref where
  type : Nat
  ids : List Nat
  deriving DecidableEq, Repr

/-- `addTrackID`: TrackReferenceTypeAtom.c 109-131. -/
def addTrackID (r : Ref) (id : Nat) : Res Ref :=
  if id = 0 then .err .badParam
  else if r.ids.contains id then .ok r
  else .ok { r with ids := r.ids ++ [id] }

/-- `calculateSize`: TrackReferenceTypeAtom.c 63-76. -/
def refSize (r : Ref) : Nat := w32(8 + w32(r.ids.length * 4))

/-- `serialize`: TrackReferenceTypeAtom.c 42-61; a type of 0 fails the assertion at MP4Atoms.c 956. -/
def putRef (r : Ref) : W :=
  if r.type = 0 then W.bad
  else serBase (refSize r) r.type ;; W.each put32 r.ids ;; W.assertFull

/-- `createFromInputStream`: TrackReferenceTypeAtom.c 78-107. -/
def getRef (h : Hdr) : P Ref := do
  let br ← P.bytesRead
  let ids ← P.repeat (w32(h.size + (4294967296 - br)) / 4) get32
  pure ⟨h.type, ids⟩

/-! ## The container -/

def typeTref : Nat := 0x74726566
def typeFree : Nat := 0x66726565
def typeSkip : Nat := 0x736b6970

/-- `findAtomOfType`: TrackReferenceAtom.c 79-103. -/
def find (l : List Ref) (type : Nat) : Option Ref := l.find? (fun r => r.type == type)

/-- The first reference of the type replaced (in the C code, changed in place). -/
def update (r' : Ref) : List Ref → List Ref
  | [] => []
  | r :: l => if r.type = r'.type then r' :: l else r :: update r' l

/-- `MP4AddTrackReference`: MovieTracks.c 83-124. Result: the references and the index returned. -/
def add (l : List Ref) (id type : Nat) : Res (List Ref × Nat) :=
  if id = 0 then .err .badParam
  else match find l type with
    | some r => (addTrackID r id).bind fun r' => .ok (update r' l, r'.ids.length)
    | none => (addTrackID ⟨type, []⟩ id).bind fun r' => .ok (l ++ [r'], r'.ids.length)

/-- `MP4GetTrackReferenceCount`: MovieTracks.c 631-658. -/
def count (l : List Ref) (type : Nat) : Res Nat :=
  if type = 0 then .err .badParam
  else match find l type with
    | some r => .ok r.ids.length
    | none => .ok 0

/-- `MP4GetTrackReference`: MovieTracks.c 599-629, up to the track ID. -/
def get (l : List Ref) (type index : Nat) : Res Nat :=
  if type = 0 ∨ index = 0 then .err .badParam
  else match find l type with
    | none => .err .badParam
    | some r =>
      if r.ids.length < index then .err .badParam
      else match r.ids[index - 1]? with
        | some id => if id = 0 then .err .invalidMedia else .ok id
        | none => .ub

/-- `calculateSize`: TrackReferenceAtom.c 65-77. -/
def size (l : List Ref) : Nat := w32(8 + (l.map refSize).sum)

/-- `serialize`: TrackReferenceAtom.c 48-63. -/
def serialize (l : List Ref) : W :=
  serBase (size l) typeTref ;; W.each (fun r => nested (refSize r) (putRef r)) l ;; W.assertFull

/-- The loop of `createFromInputStream`: TrackReferenceAtom.c 128-144. Every round reads at least
eight bytes, so the number of unread bytes bounds the number of rounds. -/
def loop (size : Nat) : Nat → List Ref → P (List Ref)
  | 0, _ => P.bad
  | fuel + 1, l => do
    let br ← P.bytesRead
    if br < size then do
      let r ← getAtom getRef
      loop size fuel (if r.type = typeFree ∨ r.type = typeSkip then l else l ++ [r])
    else pure l

/-- `createFromInputStream`: TrackReferenceAtom.c 116-151. -/
def parse (h : Hdr) : P (List Ref) := do
  let n ← P.available
  let l ← loop h.size (n + 1) []
  let br ← P.bytesRead
  if br ≠ h.size then P.fail .badData else pure l

end Verif.Tref
