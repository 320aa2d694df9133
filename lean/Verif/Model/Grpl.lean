import Verif.Core.Box

/-!
# Entity groups
EntityToGroupBox.c, GroupsListBox.c and the functions of ISOMeta.c on entity groups.
-/

namespace Verif.Grpl

/-- The members of `EntityToGroupBox` (MP4Atoms.h 2198-2211). `num_entities_in_group` is the length of the list
`entity_ids`; `data` is `remainingData`. -/
structure Box where
  type : Nat
  version : Nat
  flags : Nat
  id : Nat
  entities : List Nat
  data : Bytes
  deriving DecidableEq, Repr

def typeGrpl : Nat := 0x6772706c
def typeFree : Nat := 0x66726565
def typeSkip : Nat := 0x736b6970

/-- `calculateSize`: EntityToGroupBox.c 58-76. The remaining data is not counted. -/
def boxSize (b : Box) : Nat := w32(12 + 8 + b.entities.length * 4)

/-- `serialize`: EntityToGroupBox.c 78-107, with the assertion on the type. -/
def putBox (size : Nat) (b : Box) : W :=
  (if b.type = 0 then W.bad else W.skip) ;;
  serFull size b.type b.version b.flags ;;
  put32 b.id ;; put32 b.entities.length ;;
  W.each put32 b.entities ;;
  putBytes b.data ;; W.assertFull

/-- `createFromInputStream`: EntityToGroupBox.c 109-151. -/
def parseBox (h : Hdr) : P Box := do
  let vf ← getVersionFlags
  let id ← get32
  let count ← get32
  let entities ← P.repeat count get32
  let br ← P.bytesRead
  let data ← getBytes w32(h.size + (4294967296 - br))
  let br ← P.bytesRead
  if br ≠ h.size then P.bad
  else pure ⟨h.type, vf.1, vf.2, id, entities, data⟩

/-- `calculateSize` and `serialize`: GroupsListBox.c 41-71. -/
def write (l : List Box) : Res Bytes :=
  let size := w32(8 + (l.map boxSize).sum)
  runW size (serBase size typeGrpl ;;
    W.each (fun b => nested (boxSize b) (putBox (boxSize b) b)) l ;; W.assertFull)

/-- The loop of `createFromInputStream`: GroupsListBox.c 93-109. Boxes of all types are read as groups. Every
round reads at least eight bytes. -/
def loop (size : Nat) : Nat → List Box → P (List Box)
  | 0, _ => P.bad
  | fuel + 1, l => do
    let br ← P.bytesRead
    if br < size then do
      let b ← getAtom parseBox
      loop size fuel (if b.type = typeFree ∨ b.type = typeSkip then l else l ++ [b])
    else pure l

/-- `createFromInputStream`: GroupsListBox.c 83-116. -/
def parse (h : Hdr) : P (List Box) := do
  let n ← P.available
  let l ← loop h.size (n + 1) []
  let br ← P.bytesRead
  if br ≠ h.size then P.fail .badData else pure l

/-! ## The functions on groups

The state is the list of `grpl`, `none` without the box. -/

abbrev S := Option (List Box)

/-- `ISONewEntityGroup`: ISOMeta.c 2086-2126. The list is made even if the call fails, which it does not then. -/
def newGroup (s : S) (type id : Nat) : Res S :=
  let l := s.getD []
  if l.any (fun b => b.id == id) then .err .badParam
  else .ok (some (l ++ [⟨type, 0, 0, id, [], []⟩]))

/-- The first group with the ID gets one more entity. -/
def addFirst (id entity : Nat) : List Box → Option (List Box)
  | [] => none
  | b :: l => if b.id = id then some ({ b with entities := b.entities ++ [entity] } :: l)
    else (addFirst id entity l).map (b :: ·)

/-- `ISOAddEntityIDToGroup`: ISOMeta.c 2128-2160. -/
def addEntity (s : S) (id entity : Nat) : Res S :=
  match s with
  | none => .err .notFound
  | some l => match addFirst id entity l with
    | none => .err .notFound
    | some l' => .ok (some l')

/-- `ISOGetEntityIDCnt`: ISOMeta.c 2162-2193. -/
def count (s : S) (id : Nat) : Res Nat :=
  match s with
  | none => .err .notFound
  | some l => match l.find? fun b => b.id == id with
    | none => .err .notFound
    | some b => .ok b.entities.length

/-- `ISOGetEntityGroupEntries`: ISOMeta.c 2195-2252: type, ID and entities of all groups. -/
def entries (s : S) : Res (List (Nat × Nat × List Nat)) :=
  match s with
  | none => .err .notFound
  | some l => .ok (l.map fun b => (b.type, b.id, b.entities))

end Verif.Grpl
