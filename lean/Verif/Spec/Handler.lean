import Verif.Model.Handler
import Verif.Lemmas.Strings

/-!
# Which bytes a data reference stands for

A data reference is for the movie's own file, or has the location of another file: a `file://` URL, or a name beside the movie.
-/

namespace Verif.Handler

open Str (Text)

def ascii (s : String) : Bytes := s.toList.map fun c => UInt8.ofNat c.toNat

/-- `name` starts like the URL of a file. -/
def FileUrl (name : Bytes) : Prop := ascii "file://" <+: name ∨ ascii "file|//" <+: name

instance (name : Bytes) : Decidable (FileUrl name) := inferInstanceAs (Decidable (_ ∨ _))

/-- The path of the file with a location, from a movie in the directory `dir`. -/
def pathOf (dir : Option Bytes) (name : Bytes) : Bytes :=
  if FileUrl name then name.drop 7 else dir.getD [] ++ name

/-- The entry is for another file, which has the path `path`. -/
structure Elsewhere (dir : Option Bytes) (r : Ref) (path : Bytes) : Prop where
  flags : r.flags ≠ 1
  location : ∃ name rest, r.location = some (name ++ 0 :: rest) ∧ Text name ∧ (dir.getD []).length + name.length + 1 < 2 ^ 32 ∧ path = pathOf dir name
  /-- Not a URL in a URL. -/
  plain : ¬ FileUrl path

/-- The data of entry `r` are the bytes `f`; `own` is the content of the movie's file, if there is one. -/
inductive Keeps (fs : Fs) (own dir : Option Bytes) (r : Ref) (f : Bytes) : Prop where
  /-- In the movie's file, whose media data is in memory. -/
  | merged (m : Mdat.T) (c : Bytes) (flags : r.flags = 1) (mdat : r.mdat = some m) (data : m.data = some c) (fits : m.dataSize ≤ c.length)
      (eq : f = c.take m.dataSize)
  /-- In the movie's file, which is opened in place. -/
  | inPlace (flags : r.flags = 1) (mdat : r.mdat = none) (eq : own = some f)
  /-- In another file. -/
  | other (path : Bytes) (at_ : Elsewhere dir r path) (file : fs path = some f) (small : f.length ≤ 0x7ffff000)

/-- The bytes of an answer as they are in memory. -/
def cells : Res Bytes → Res (List Hdl.Cell)
  | .ok b => .ok (b.map some)
  | .err e => .err e
  | .ub => .ub

/-- What a call on a track with these data references has to answer. -/
inductive Says (fs : Fs) (own dir : Option Bytes) (refs : List Ref) : Op → Res Bytes → Prop where
  | read {i off n : Nat} {r : Ref} {f : Bytes} (hi : 0 < i) (hr : refs[i - 1]? = some r) (hf : Keeps fs own dir r f)
      (small : off < 2 ^ 32) (fits : off + n ≤ f.length) : Says fs own dir refs (.read i off n) (.ok ((f.drop off).take n))
  | unknown {i off n : Nat} (hi : i = 0 ∨ refs.length < i) : Says fs own dir refs (.read i off n) (.err .badParam)
  | beyond {i off n : Nat} {r : Ref} {m : Mdat.T} (hi : 0 < i) (hr : refs[i - 1]? = some r) (flags : r.flags = 1) (mdat : r.mdat = some m)
      (some_ : 0 < n) (small : off + n < 2 ^ 64) (out : m.dataSize < off + n) : Says fs own dir refs (.read i off n) (.err .badParam)
  | close : Says fs own dir refs .close (.ok [])
  | test {i : Nat} {r : Ref} {f : Bytes} (hi : 0 < i) (hr : refs[i - 1]? = some r) (hf : Keeps fs own dir r f) :
      Says fs own dir refs (.test i) (.ok [])
  | missing {i : Nat} {r : Ref} {path : Bytes} (hi : 0 < i) (hr : refs[i - 1]? = some r) (hp : Elsewhere dir r path) (hf : fs path = none) :
      Says fs own dir refs (.test i) (.err .notFound)
  | testUnknown {i : Nat} (hi : i = 0 ∨ refs.length < i) : Says fs own dir refs (.test i) (.err .badParam)

/-- The stream of a movie whose file has the content `own` and is in the directory `dir`; without a stream there are neither. -/
def Opened (st : Option Mapping) (own dir : Option Bytes) : Prop :=
  match st with
  | none => own = none ∧ dir = none
  | some m => own.isSome ∧ m.data = own ∧ m.size64 = (own.getD []).length ∧ m.parent = dir ∧ ∀ d, dir = some d → Text d

/-- A track just opened. -/
def fresh (st : Option Mapping) (refs : List Ref) : Track := ⟨st, some refs, none, 0⟩

/-- The pieces of `f` that the extents are for, one after the other. -/
def pieces (f : Bytes) (base : Nat) : List Iloc.Extent → Bytes
  | [] => []
  | e :: es => (f.drop (base + e.offset)).take e.length ++ pieces f base es

end Verif.Handler
