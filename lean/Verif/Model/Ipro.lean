import Verif.Model.Protect

/-!
# Protection of items

ItemProtectionAtom.c, and the functions on it in ISOMeta.c 1809-1990. Boxes in the box are those of Model/Protect; `C` is the class
of the boxes that do not matter here. A field that is read from a NULL pointer, or from a box that is not a protection box, is
undefined behaviour. The box that the caller gives is not NULL. The cache of the list (MP4LinkedList.c 150-177) is in
Model/LinkedList; here a list entry is the element at the index.
-/

namespace Verif.Ipro

open Verif.Ent
open Verif.Prot
open Verif.Str (cstr)

variable {α : Type}

def typeIpro : Nat := 0x6970726f

/-- `calculateSize`: ItemProtectionAtom.c 84-99. -/
def size (C : Class α) (l : List (Bx α)) : Nat := listSize (boxes C) w32(12 + 2) l

/-- `serialize`: ItemProtectionAtom.c 59-82. -/
def serialize (C : Class α) (version flags : Nat) (l : List (Bx α)) : W :=
  serFull (size C l) typeIpro version flags ;; put16 l.length ;; serList (boxes C) l ;; W.assertFull

/-- `addAtom`: ItemProtectionAtom.c 46-57. -/
def addBox (l : List (Bx α)) (_ : Nat) (x : Bx α) : Res (List (Bx α)) := .ok (l ++ [x])

/-- `createFromInputStream`: ItemProtectionAtom.c 101-129. -/
def parse (C : Class α) (h : Hdr) : P ((Nat × Nat) × List (Bx α)) := do
  let vf ← getVersionFlags
  let n ← get16
  let l ← addAll (boxes C) addBox [] h.size
  if l.length ≠ n then P.fail .badData else pure (vf, l)

/-- `ISONewMetaProtection`: ISOMeta.c 1809-1877. `ipro` is the field of the meta box; the result is the new one and the index. `url`
is the text before the NUL, if any. -/
def new (ipro : Option (List (Bx α))) (scheme version : Nat) (url : Option Bytes) : List (Bx α) × Nat :=
  let l := ipro.getD []
  (l ++ [.sinf ⟨none, some ((0, 0), ⟨scheme, version, url.map (· ++ [0])⟩), some []⟩], w16(l.length + 1))

/-- `MP4GetListEntry(ipro->atomList, protection_index - 1, (char **)&sinf)`: the index is a `u16`, so 0 becomes 4294967295. -/
def entry (l : List (Bx α)) (index : Nat) : Res (Sinf α) :=
  if index = 0 then .err .badParam
  else match l[index - 1]? with
    | none => .err .badParam
    | some (.sinf s) => .ok s
    | some (.other _) => .ub

/-- The entry through the field. -/
def find (ipro : Option (List (Bx α))) (index : Nat) : Res (Sinf α) :=
  match ipro with
  | none => .err .badParam
  | some l => entry l index

/-- `ISOAddMetaProtectionInfo`: ISOMeta.c 1879-1905. -/
def addInfo (ipro : Option (List (Bx α))) (index : Nat) (x : Info α) : Res (List (Bx α)) := do
  let s ← find ipro index
  match s.schi with
  | none => .err .badParam
  | some l => .ok ((ipro.getD []).set (index - 1) (.sinf { s with schi := some (l ++ [x]) }))

/-- `ISOGetMetaProtection`: ISOMeta.c 1907-1940; `want` is whether `sch_url` is not NULL. The address is `none` if the caller's
memory is left as it was. -/
def getScheme (ipro : Option (List (Bx α))) (index : Nat) (want : Bool) : Res (Nat × Nat × Option Bytes) := do
  let s ← find ipro index
  match s.schm with
  | none => .ub
  | some (_, x) =>
    match want, x.url with
    | true, some b =>
      match cstr b with
      | none => .ub
      | some u => .ok (x.scheme, x.schemeVersion, some u)
    | _, _ => .ok (x.scheme, x.schemeVersion, none)

/-- `ISOGetMetaProtectionInfo`: ISOMeta.c 1942-1990. The list of a scheme information box is never NULL (SchemeInfoAtom.c
103-125). -/
def getInfo (ipro : Option (List (Bx α))) (index type : Nat) : Res (Info α) := do
  let s ← find ipro index
  match s.schi with
  | none => .err .badParam
  | some l =>
    match l.find? (fun x => x.type = type) with
    | some x => .ok x
    | none => .err .notFound

end Verif.Ipro
