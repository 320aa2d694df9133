import Verif.Model.Iinf

/-!
# Asking for the information of items
`ISOGetItemInfo` and `ISOGetAllItemsWithType` of ISOMeta.c.

The buffers of the caller are large enough. What stands in a buffer is given as a string of C; memory the
caller has to free is not followed.
-/

namespace Verif.Iinf

/-- Which arguments of `ISOGetItemInfo` are not `NULL`. -/
structure Ask where
  protection : Bool
  name : Bool
  contentType : Bool
  contentEncoding : Bool
  deriving DecidableEq, Repr

/-- What was written to the arguments, `none` for those that are `NULL` or left as they were. -/
structure Answer where
  protection : Option Nat
  name : Option Bytes
  contentType : Option Bytes
  contentEncoding : Option Bytes
  deriving DecidableEq, Repr

/-- `strlen` and `memcpy` with the terminator, or an empty string: ISOMeta.c 1731-1745. -/
def copyOut (given : Bool) (m : Option Bytes) : Res (Option Bytes) :=
  if given then
    match m with
    | some b => (strlen b).bind fun n => .ok (some (b.take n))
    | none => .ok (some [])
  else .ok none

/-- The part for the entry that was found: ISOMeta.c 1730-1758. Without a content type, `name[0] = 0` is
executed for a caller that wants one. -/
def answer (a : Ask) (e : Entry) : Res Answer :=
  (copyOut a.name e.name).bind fun n =>
  (copyOut a.contentEncoding e.contentEncoding).bind fun c =>
    let p := if a.protection then some w16(e.protection) else none
    if a.contentType then
      match e.contentType with
      | some b => (strlen b).bind fun k => .ok ⟨p, n, some (b.take k), c⟩
      | none => if a.name then .ok ⟨p, some [], none, c⟩ else .ub
    else .ok ⟨p, n, none, c⟩

/-- The loop: ISOMeta.c 1723-1760; the first entry. Members of other classes have no ID. -/
def findInfo (a : Ask) (id : Nat) : List Member → Res Answer
  | [] => .err .notFound
  | .other _ _ :: _ => .ub
  | .infe e :: l => if e.id = id then answer a e else findInfo a id l

/-- `ISOGetItemInfo`: ISOMeta.c 1698-1768. -/
def getInfo (s : S) (a : Ask) (id : Nat) : Res Answer :=
  match s with
  | none => .err .notFound
  | some l => findInfo a id l

/-- The loop of `ISOGetAllItemsWithType`: ISOMeta.c 1478-1495; `found` grows by `realloc`. -/
def typeLoop (s : S) (type : Nat) : List Nat → List Nat → Res (List Nat)
  | found, [] => .ok found
  | found, id :: l => (getType s id).bind fun r => typeLoop s type (if type = r.1 then found ++ [id] else found) l

/-- `ISOGetAllItemsWithType`: ISOMeta.c 1455-1504. `items` are the IDs in the item locations, `none` without
this box. -/
def withType (s : S) (items : Option (List Nat)) (type : Nat) : Res (List Nat) :=
  match items with
  | none => .err .notFound
  | some l => typeLoop s type [] l

end Verif.Iinf
