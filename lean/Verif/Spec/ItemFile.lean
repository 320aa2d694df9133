import Verif.Model.Iloc
import Verif.Core.Basic

/-!
# The data of an item, as ISO/IEC 14496-12, 8.11.3 has it
-/

namespace Verif.ItemFile

open Iloc (Item Extent)

/-- A file with a meta box: its bytes, the items, the data of the item data box, and for each item ID the IDs that its references of type `iloc`
give, in order. -/
structure File where
  bytes : Bytes
  items : List Item
  idat : Bytes
  refs : Nat → List Nat

/-- `n` bytes of `src` at place `at`. -/
def cut (src : Bytes) (pos n : Nat) : Option Bytes :=
  if pos + n ≤ src.length then some ((src.drop pos).take n) else none

/-- The pieces one after the other, if each exists. -/
def join (g : Extent → Option Bytes) : List Extent → Option Bytes
  | [] => some []
  | e :: es => (g e).bind fun x => (join g es).bind fun y => some (x ++ y)

/-- The item that the reference `index` (from 1; no index is 1) of an item leads to. -/
def File.target (f : File) (a : Item) (index : Nat) : Option Item :=
  ((f.refs a.id)[index - 1]?).bind fun id => f.items.find? fun b => b.id = id

/-- The data of an item, with items made of items up to the given depth: every extent is at base offset plus extent offset of its source, which is
the file (construction method 0), the item data box (1) or another item (2). Length 0 is all of the source. -/
def means : Nat → File → Item → Option Bytes
  | 0, _, _ => none
  | n + 1, f, a => join (fun e =>
      (if a.method = 0 then some f.bytes
       else if a.method = 1 then some f.idat
       else if a.method = 2 then (f.target a e.index).bind (means n f)
       else none).bind fun src =>
      if e.length = 0 then (if a.base + e.offset = 0 then some src else none)
      else cut src (a.base + e.offset) e.length) (a.extents.getD [])

end Verif.ItemFile
