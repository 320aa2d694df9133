import Verif.Model.MediaAttr
import Verif.Props.C31
import Verif.Props.C68
import Verif.Props.C69

/-!
# Attributes of a media, as set

A media of video has a graphics mode with a color, a media of sound has a balance, and all have a language of three letters and
may have an extended one.
-/

namespace Verif.Attr

open Verif.Headers (Packable)
open Verif.Str (Text)

structure Attrs where
  lang : Nat × Nat × Nat
  tag : Option Bytes
  mode : Nat × Nat × Nat × Nat
  balance : Int
  deriving DecidableEq

inductive Op
  | lang (a b c : Nat)
  | tag (s : Bytes)
  | mode (m r g b : Nat)
  | balance (v : Int)

/-- "und", no extended language, copying, centered. -/
def initial : Attrs := ⟨(117, 110, 100), none, (0, 0, 0, 0), 0⟩

/-- The call is for media of this handler. -/
def Op.Fits (handler : Nat) : Op → Prop
  | .mode .. => handler = fcc 'v' 'i' 'd' 'e'
  | .balance _ => handler = fcc 's' 'o' 'u' 'n'
  | _ => True

instance (handler : Nat) (o : Op) : Decidable (o.Fits handler) := by cases o <;> unfold Op.Fits <;> infer_instance

/-- What a call is for: the last value counts. -/
def Attrs.apply (handler : Nat) (x : Attrs) (o : Op) : Attrs :=
  if o.Fits handler then
    match o with
    | .lang a b c => { x with lang := (a, b, c) }
    | .tag s => { x with tag := some s }
    | .mode m r g b => { x with mode := (m, r, g, b) }
    | .balance v => { x with balance := v }
  else x

/-- Values of the C types; letters that can be packed; strings end at their NUL. -/
def Op.Valid : Op → Prop
  | .lang a b c => Packable a ∧ Packable b ∧ Packable c
  | .tag s => Text s ∧ 13 + s.length < 4294967296
  | .mode m r g b => m < 4294967296 ∧ r < 65536 ∧ g < 65536 ∧ b < 65536
  | .balance v => -32768 ≤ v ∧ v < 32768

/-- The calls of the library, with the error that is returned. -/
def call (m : Media) : Op → Res (Media × Option Err)
  | .tag s => .ok (setTag m s)
  | .lang a b c => keep (setLang m a b c)
  | .mode md r g b => keep (setMode m md r g b)
  | .balance v => keep (setBalance m v)
where
  keep : Res Media → Res (Media × Option Err)
    | .ok m => .ok (m, none)
    | .err e => .ok (m, some e)
    | .ub => .ub

def calls : Media → List Op → Res Media
  | m, [] => .ok m
  | m, o :: os => (call m o).bind fun r => calls r.1 os

/-- The extended languages among the calls. -/
def tagsOf (os : List Op) : List Bytes := os.filterMap fun o => match o with | .tag s => some s | _ => none

/-- What all getters answer, if the extended language is `tag`. -/
structure Answers (handler : Nat) (m : Media) (x : Attrs) (tag : Option Bytes) : Prop where
  lang : getLang m = .ok x.lang
  tag : getTag m = .ok tag
  mode : getMode m = if handler = fcc 'v' 'i' 'd' 'e' then .ok x.mode else .err .notImplemented
  balance : getBalance m = if handler = fcc 's' 'o' 'u' 'n' then .ok x.balance else .err .notImplemented

end Verif.Attr
