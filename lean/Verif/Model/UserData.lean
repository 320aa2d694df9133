import Verif.Core.Basic

/-!
# User data
UserDataAtom.c, MP4UserData.c. The linked lists are sequences (C01).
-/

namespace Verif.UserData

/-- `UserDataMapRecord`: UserDataAtom.c 31-35. The data of an item is that of the `MP4UnknownAtom` made
for it. -/
structure Record where
  type : Nat
  items : List Bytes
  deriving DecidableEq, Repr

/-- `findEntryForAtomType`: UserDataAtom.c 119-142. -/
def find (l : List Record) (type : Nat) : Option Record := l.find? fun r => r.type == type

/-- The record found, after a change. -/
def update (type : Nat) (f : Record → Record) : List Record → List Record
  | [] => []
  | r :: l => if r.type = type then f r :: l else r :: update type f l

/-- `MP4AddUserData` and `addUserData`: MP4UserData.c 30-47, UserDataAtom.c 75-117. The index of the new
item is returned. -/
def add (l : List Record) (type : Nat) (data : Bytes) : Res (List Record × Nat) :=
  if type = 0 then .err .badParam
  else match find l type with
    | none => .ok (l ++ [⟨type, [data]⟩], 1)
    | some r => .ok (update type (fun r => { r with items := r.items ++ [data] }) l, w32(r.items.length + 1))

/-- `MP4DeleteUserDataItem` and `deleteItem`: MP4UserData.c 174-194, UserDataAtom.c 247-263. -/
def delete (l : List Record) (type index : Nat) : Res (List Record) :=
  if type = 0 ∨ index = 0 then .err .badParam
  else match find l type with
    | none => .err .badParam
    | some r =>
      if index - 1 ≥ r.items.length then .err .badParam
      else .ok (update type (fun r => { r with items := r.items.eraseIdx (index - 1) }) l)

/-- `MP4GetUserDataEntryCount` and `getEntryCount`: MP4UserData.c 49-70, UserDataAtom.c 155-178. -/
def entryCount (l : List Record) (type : Nat) : Res Nat :=
  if type = 0 then .err .badParam
  else match find l type with
    | none => .ok 0
    | some r => .ok r.items.length

/-- `MP4GetUserDataItem` and `getItem`: MP4UserData.c 116-137, UserDataAtom.c 200-223. -/
def item (l : List Record) (type index : Nat) : Res Bytes :=
  if type = 0 ∨ index = 0 then .err .badParam
  else match find l type with
    | none => .err .badParam
    | some r => match r.items[index - 1]? with
      | none => .err .badParam
      | some d => .ok d

/-- `MP4GetUserDataTypeCount`: MP4UserData.c 95-114, UserDataAtom.c 144-153. -/
def typeCount (l : List Record) : Nat := l.length

/-- `MP4GetIndUserDataType` and `getIndType`: MP4UserData.c 72-93, UserDataAtom.c 180-198. -/
def indType (l : List Record) (index : Nat) : Res Nat :=
  if index = 0 then .err .badParam
  else if index > l.length then .err .badParam
  else match l[index - 1]? with
    | none => .err .badParam
    | some r => .ok r.type

end Verif.UserData
