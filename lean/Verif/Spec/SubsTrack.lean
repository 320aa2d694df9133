import Verif.Model.SubsTrack
import Verif.Spec.Batch
import Verif.Props.C41

/-!
# What sub-sample information of a track is
-/

namespace Verif.Subs

/-- One set of sub-sample information: flags that say what a sub-sample is, and the sub-samples of samples. -/
structure Table where
  flags : Nat
  entries : List Entry
  deriving DecidableEq, Repr

/-- Calls; `k` counts the sets from 0. `extra` is what the arrays hold beyond the sub-samples. -/
inductive Op
  | new
  | flags (k f : Nat)
  | entry (k : Nat) (e : Entry) (extra : List Nat)
  | entry2 (k : Nat) (e : Entry) (extra : List Nat)
  deriving DecidableEq, Repr

/-- The sets after a call. -/
def Op.apply (ts : List Table) : Op → List Table
  | .new => ts ++ [⟨0, []⟩]
  | .flags k f => ts.modify k fun x => { x with flags := f }
  | .entry k e _ => ts.modify k fun x =>
    { x with entries := x.entries ++ [{ e with subs := e.subs.map fun s => { s with parameters := 0 } }] }
  | .entry2 k e _ => ts.modify k fun x => { x with entries := x.entries ++ [e] }

/-- Only sets that were made are named, `n` being there before. -/
def Named : Nat → List Op → Prop
  | _, [] => True
  | n, .new :: os => Named (n + 1) os
  | n, .flags k _ :: os => k < n ∧ Named n os
  | n, .entry k _ _ :: os => k < n ∧ Named n os
  | n, .entry2 k _ _ :: os => k < n ∧ Named n os

/-- The call of the library. -/
def call (t : Track) : Op → Res Track
  | .new => .ok (newBox t).1
  | .flags k f => setFlags t k f
  | .entry k e x => addTo t k e.delta e.subs.length (e.subs.map Sub.size ++ x) (e.subs.map Sub.priority ++ x)
    (e.subs.map Sub.discardable ++ x)
  | .entry2 k e x => addTo2 t k e.delta e.subs.length (e.subs.map Sub.size ++ x) (e.subs.map Sub.priority ++ x)
    (e.subs.map Sub.discardable ++ x) (e.subs.map Sub.parameters ++ x)

/-- What a box holds. -/
def tableOf (b : Box) : Table := ⟨b.flags, b.entries⟩

/-- The set can be written: all values fit, each entry has sub-samples, and the box is not too long. -/
structure TableFits (x : Table) : Prop where
  flags : x.flags < 2 ^ 24
  entries : ∀ e ∈ x.entries, EntryFits e
  size : 16 + (x.entries.map fun e => 6 + e.subs.length * 10).sum < 2 ^ 32

/-- What is asked for about an entry. -/
def Tells (r : Row) (e : Entry) : Prop :=
  r.delta = e.delta ∧ r.count = e.subs.length ∧
    r.arrays = some (e.subs.map Sub.size, e.subs.map Sub.priority, e.subs.map Sub.discardable)

/-- The answer is about the first of the sets. -/
def Answered (r : Res (Nat × List Row)) : List Table → Prop
  | [] => r = .err .notFound
  | x :: _ => ∃ rows, r = .ok (x.flags, rows) ∧ rows.length = x.entries.length ∧
      ∀ (i : Nat) (r : Row) (e : Entry), rows[i]? = some r → x.entries[i]? = some e → Tells r e

end Verif.Subs
