/-!
# Basic vocabulary of the model

Result type, fixed-width reduction, byte strings.
-/

namespace Verif

/-- Error codes of the library that the model distinguishes
(libisomediafile/src/ISOMovies.h, MP4Err values). -/
inductive Err
  | ioErr | badParam | badData | invalidMedia | notImplemented
  | eof | notFound | noMemory | internalErr
  deriving DecidableEq, Repr

/-- Outcome of a modelled C function: a value (`MP4NoErr`), an error code, or
undefined behaviour (out-of-bounds access, division by zero, ...). -/
inductive Res (α : Type u) where
  | ok (a : α)
  | err (e : Err)
  | ub
  deriving DecidableEq, Repr

namespace Res

/-- Sequencing: the `if(err) goto bail;` idiom. -/
@[inline] def bind {α : Type u} {β : Type v} (x : Res α) (f : α → Res β) : Res β :=
  match x with
  | ok a => f a
  | err e => err e
  | ub => ub

instance : Monad Res where
  pure := ok
  bind := bind

@[simp] theorem pure_def {α : Type u} (a : α) : (pure a : Res α) = ok a := rfl
@[simp] theorem ok_bind {α β : Type u} (a : α) (f : α → Res β) : (ok a >>= f) = f a := rfl
@[simp] theorem err_bind {α β : Type u} (e : Err) (f : α → Res β) : (err e >>= f) = err e := rfl
@[simp] theorem ub_bind {α β : Type u} (f : α → Res β) : ((ub : Res α) >>= f) = ub := rfl

@[simp] theorem map_ok {α β : Type u} (f : α → β) (a : α) : (f <$> (ok a : Res α)) = ok (f a) := rfl

theorem bind_eq_ok {α β : Type u} {x : Res α} {f : α → Res β} {b : β} :
    (x >>= f) = ok b ↔ ∃ a, x = ok a ∧ f a = ok b := by
  cases x <;> simp

end Res

/-- Reduction to `u8`, `u16`, `u32`, `u64` (C unsigned wrap-around). Notation only, so that
linear arithmetic sees the literal modulus. -/
syntax "w8(" term ")" : term
syntax "w16(" term ")" : term
syntax "w32(" term ")" : term
syntax "w64(" term ")" : term
macro_rules
  | `(w8($t)) => `(($t) % 256)
  | `(w16($t)) => `(($t) % 65536)
  | `(w32($t)) => `(($t) % 4294967296)
  | `(w64($t)) => `(($t) % 18446744073709551616)

/-- `n - 1` in `u32`. -/
def pred32 (n : Nat) : Nat := if n = 0 then 4294967295 else n - 1

/-- The `s32` with the bit pattern `n` (below 2^32), and back. -/
def s32 (n : Nat) : Int := if n < 2147483648 then n else (n : Int) - 4294967296
def u32i (x : Int) : Nat := (x % 4294967296).toNat

/-- The `s64` with the bit pattern `n` (below 2^64), and back. -/
def s64 (n : Nat) : Int := if n < 9223372036854775808 then n else (n : Int) - 18446744073709551616
def u64i (x : Int) : Nat := (x % 18446744073709551616).toNat

theorem s32_u32i {x : Int} (h1 : -2147483648 ≤ x) (h2 : x < 2147483648) : s32 (u32i x) = x := by
  unfold s32 u32i; split <;> omega

theorem s64_u64i {x : Int} (h1 : -9223372036854775808 ≤ x) (h2 : x < 9223372036854775808) :
    s64 (u64i x) = x := by
  unfold s64 u64i; split <;> omega

theorem u32i_lt (x : Int) : u32i x < 4294967296 := by unfold u32i; omega
theorem u64i_lt (x : Int) : u64i x < 18446744073709551616 := by unfold u64i; omega

/-- Byte strings. -/
abbrev Bytes := List UInt8

end Verif
