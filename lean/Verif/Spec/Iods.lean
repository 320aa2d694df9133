import Verif.Spec.OdFrame
import Verif.Model.Iods

/-!
# What a movie's initial object descriptor says
-/

namespace Verif.Od

open Verif.Descr

/-- What an application does with the descriptor. -/
inductive Op
  | track (id : Nat)
  | desc (i : Item)
  | inline (flag : Nat)
  | ask (v : Mov) (sl : Option Sl)

/-- One step; asking has to succeed, what is refused changes nothing. -/
def step (o : Op) (s : Option Iods) : Res (Option Iods) :=
  match o with
  | .track id => addTrack id s
  | .desc i => match addDesc (itemBytes i) s with | .ok s' => .ok s' | .err _ => .ok s | .ub => .ub
  | .inline flag => match setInline flag s with | .ok (some s') => .ok (some s') | .ok none => .ok s | .err e => .err e | .ub => .ub
  | .ask v sl => match movieDescriptor v sl s with | (s', .ok _) => .ok s' | (_, .err e) => .err e | (_, .ub) => .ub

def steps : List Op → Option Iods → Res (Option Iods)
  | [], s => .ok s
  | o :: os, s => (step o s).bind (steps os)

/-- The tracks that were added. -/
def tracksOf (ops : List Op) : List Nat := ops.filterMap fun | .track id => some id | _ => none

/-- The flag that was set last. -/
def flagOf (ops : List Op) : Nat := ops.foldl (fun n => fun | .inline f => if f = 0 then 0 else 1 | _ => n) 0

/-- Descriptors for streams, their parts, whole objects and numbers of streams are not for this. -/
def Extra : Item → Prop
  | .child (.ptr _) => True
  | .child (.plain x) => x.tag ∉ [0, 5, 0x0B, 0x0C, 0x0E, 0x0F]
  | _ => False

instance : DecidablePred Extra := fun i => by
  unfold Extra
  cases i with
  | child c => cases c <;> exact inferInstance
  | _ => exact inferInstance

def extrasOf (ops : List Op) : List Item := ops.filterMap fun | .desc i => if Extra i then some i else none | _ => none

/-- The initial object descriptor for all this, with the tag and with the tracks' numbers. -/
def wanted (id : Nat) (p : Profiles) (ops : List Op) : Iod where
  tag := 0x10
  id := id
  inline := flagOf ops
  url := []
  profiles := p
  es := []
  inc := tracksOf ops
  oci := []
  ptr := (extrasOf ops).filterMap fun | .child (.ptr p) => some p | _ => none
  ext := (extrasOf ops).filter fun | .child (.ptr _) => false | _ => true

/-- With descriptions of the streams in place of the numbers. -/
def openIod (f : Nat → Es) (d : Iod) : Iod := { d with tag := 0x02, es := d.es ++ d.inc.map f, inc := [] }

def openOd (f : Nat → Es) (d : Od) : Od := { d with tag := 0x01, es := d.es ++ d.inc.map f, inc := [] }

end Verif.Od
