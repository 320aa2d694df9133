import Verif.Core.Box
import Verif.Model.UserData

/-!
# User data in files
UserDataAtom.c, UnknownAtom.c, MP4UserData.c (`MP4GetAtomFromUserData`, `MP4GetForeignAtom`).

Simplification: boxes of type `uuid` and boxes of types that `MP4CreateAtom` has a class for are not modelled
as user data; `other` tells these types, and meeting one of them counts as undefined.
-/

namespace Verif.UserData

def typeUdta : Nat := 0x75647461
def typeFree : Nat := 0x66726565
def typeSkip : Nat := 0x736b6970

/-- The boxes in the order of `serialize`: record by record. -/
def members (l : List Record) : List (Nat × Bytes) := l.flatMap fun r => r.items.map fun d => (r.type, d)

/-- `calculateSize`: UnknownAtom.c 54-68. -/
def memberSize (m : Nat × Bytes) : Nat := w32(8 + m.2.length)

/-- `serialize`: UnknownAtom.c 34-52. -/
def putMember (m : Nat × Bytes) : W :=
  if m.1 = typeUuid then W.bad else serBase (memberSize m) m.1 ;; putBytes m.2 ;; W.assertFull

/-- `calculateSize` and `serialize`: UserDataAtom.c 287-337. -/
def write (l : List Record) : Res Bytes :=
  let size := (members l).foldl (fun n m => w32(n + memberSize m)) 8
  runW size (serBase size typeUdta ;; W.each (fun m => nested (memberSize m) (putMember m)) (members l) ;; W.assertFull)

/-- `addAtom`: UserDataAtom.c 265-285. -/
def addAtom (l : List Record) (m : Nat × Bytes) : List Record :=
  match find l m.1 with
  | none => l ++ [⟨m.1, [m.2]⟩]
  | some _ => update m.1 (fun r => { r with items := r.items ++ [m.2] }) l

/-- `createFromInputStream`: UnknownAtom.c 70-94, and likewise FreeSpaceAtom.c 75-104. -/
def parseItem (other : Nat → Bool) (h : Hdr) : P (Nat × Bytes) :=
  if h.type = typeUuid ∨ other h.type = true then P.bad else do
    let br ← P.bytesRead
    let d ← getBytes w32(h.size + (4294967296 - br))
    pure (h.type, d)

/-- `self->size - 4` in 32 bits: UserDataAtom.c 351. -/
@[irreducible] def stop (size : Nat) : Nat := w32(size + 4294967292)

/-- The loop of `createFromInputStream`: UserDataAtom.c 351-364. Every round reads at least eight bytes. -/
def loop (other : Nat → Bool) (size : Nat) : Nat → List Record → P (List Record)
  | 0, _ => P.bad
  | fuel + 1, l => do
    let br ← P.bytesRead
    if br < stop size then do
      let m ← getAtom (parseItem other)
      loop other size fuel (if m.1 = typeFree ∨ m.1 = typeSkip then l else addAtom l m)
    else pure l

/-- What follows the loop: UserDataAtom.c 365-370: four more bytes are passed over. -/
def fin (size : Nat) (l : List Record) : P (List Record) := do
  let br ← P.bytesRead
  let _ ← (if w32(size + (4294967296 - br)) = 4 then get32 else pure 0 : P Nat)
  let br ← P.bytesRead
  if br ≠ size then P.fail .badData else pure l

/-- `createFromInputStream`: UserDataAtom.c 339-376. -/
def parse (other : Nat → Bool) (h : Hdr) : P (List Record) := do
  let n ← P.available
  let l ← loop other h.size (n + 1) []
  fin h.size l

/-- `MP4GetAtomFromUserData` and `getAtom`: MP4UserData.c 141-167, UserDataAtom.c 225-245; then
`MP4GetForeignAtom`: MP4UserData.c 238-259. Type and data. -/
def foreign (l : List Record) (type index : Nat) : Res (Nat × Bytes) :=
  if type = 0 ∨ index = 0 then .err .badParam
  else match find l type with
    | none => .err .badParam
    | some r => match r.items[index - 1]? with
      | none => .err .badParam
      | some d => .ok (r.type, d)

end Verif.UserData
