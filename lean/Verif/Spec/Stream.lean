import Verif.Model.Stream

/-!
# What an input stream is

A stream over some bytes is a place in them: `read8`, `read16` and `read32` give the number written
in the next one, two or four bytes (most significant first), `readData` the next bytes themselves,
and the place moves behind them; what does not fit in the bytes left fails and moves nothing.
-/

namespace Verif.Stream

/-- The `n` bytes at `pos`. -/
def piece (file : Bytes) (pos n : Nat) : Bytes := (file.drop pos).take n

/-- Reading a number of `k` bytes at `pos`. -/
def number (file : Bytes) (pos k : Nat) : Res Ans × Nat :=
  if pos + k ≤ file.length then (.ok (.num (unbe (piece file pos k))), pos + k)
  else (.err .ioErr, pos)

/-- One call at the place `pos` of a file. `far` is the error for skipping 2^32 bytes or more than
there are. -/
def answer (far : Err) (file : Bytes) (pos : Nat) : Op → Res Ans × Nat
  | .read8 => number file pos 1
  | .read16 => number file pos 2
  | .read32 => number file pos 4
  | .data n =>
    if 2 ^ 32 ≤ n then (.err .notImplemented, pos)
    else if pos + n ≤ file.length then (.ok (.bytes (piece file pos n)), pos + n)
    else (.err .ioErr, pos)
  | .skip n =>
    if pos + n ≤ file.length then (.ok .done, pos + n)
    else (.err (if 2 ^ 32 ≤ n then far else .ioErr), pos)
  | .rewind n => if n ≤ pos then (.ok .done, pos - n) else (.err .badParam, pos)
  | .offset => (.ok (.num pos), pos)
  | .available => (.ok (.num (file.length - pos)), pos)

/-- The answers to a list of calls. -/
def answers (far : Err) (file : Bytes) (pos : Nat) : List Op → List (Res Ans)
  | [] => []
  | op :: ops => (answer far file pos op).1 :: answers far file (answer far file pos op).2 ops

/-- No call goes back before the start. -/
def Within (far : Err) (file : Bytes) (pos : Nat) : List Op → Prop
  | [] => True
  | op :: ops =>
    (∀ n, op = .rewind n → n ≤ pos) ∧ Within far file (answer far file pos op).2 ops

/-- A reading function: it asks for numbers, bytes and what is left, as it likes and depending on
what it has read, and ends with a result or an error. -/
inductive Prog (α : Type) where
  | done (a : α)
  | fail (e : Err)
  | read8 (k : Nat → Prog α)
  | read16 (k : Nat → Prog α)
  | read32 (k : Nat → Prog α)
  | data (n : UInt32) (k : Bytes → Prog α)
  | available (k : Nat → Prog α)

/-- A reading function on a stream of the code; `count` is `bytesRead` (the `GET` macros of MP4Impl.h
70-209 add what they read). -/
def Prog.onStream {α S : Type} (I : Impl S) : Prog α → S → Nat → Res (α × Nat)
  | .done a, _, count => .ok (a, count)
  | .fail e, _, _ => .err e
  | .read8 k, s, count =>
    (Stream.read8 I s).1.bind fun v => (k v).onStream I (Stream.read8 I s).2 (count + 1)
  | .read16 k, s, count =>
    (Stream.read16 I s).1.bind fun v => (k v).onStream I (Stream.read16 I s).2 (count + 2)
  | .read32 k, s, count =>
    (Stream.read32 I s).1.bind fun v => (k v).onStream I (Stream.read32 I s).2 (count + 4)
  | .data n k, s, count =>
    (I.data s n.toNat).1.bind fun b => (k b).onStream I (I.data s n.toNat).2 (count + n.toNat)
  | .available k, s, count => (k (I.available s)).onStream I s count

/-- The same on the list of bytes that the rest of this model reads from. -/
def Prog.onBytes {α : Type} : Prog α → P α
  | .done a => pure a
  | .fail e => P.fail e
  | .read8 k => get8 >>= fun v => (k v).onBytes
  | .read16 k => get16 >>= fun v => (k v).onBytes
  | .read32 k => get32 >>= fun v => (k v).onBytes
  | .data n k => getBytes n.toNat >>= fun b => (k b).onBytes
  | .available k => P.available >>= fun n => (k n).onBytes

/-- The result and `bytesRead` of a parser. -/
def outcome {α : Type} (r : Res (α × PS)) : Res (α × Nat) := r.bind fun x => .ok (x.1, x.2.read)

/-- What reading `n` bytes at an offset of a file should give. -/
def wanted (file : Bytes) (r : Nat × Nat) : Res Bytes :=
  if r.1 + r.2 ≤ file.length then .ok (piece file r.1 r.2) else .err .ioErr

/-- A request for nothing at the end of a file that ends where a window begins. -/
def Edge (file : Bytes) (r : Nat × Nat) : Prop :=
  r.2 = 0 ∧ r.1 = file.length ∧ file.length % 16777216 = 0

end Verif.Stream
