import Verif.Core.Basic

/-!
# Specification of the bits of a parameter set
H.264 and H.265 7.2, 7.3.1, 9.1 / 9.2.
-/

namespace Verif.Bits

/-- The lowest `n` bits of a number, the highest first: `u(n)`. -/
def u : Nat → Nat → List Bool
  | 0, _ => []
  | n + 1, v => (v / 2 ^ n % 2 == 1) :: u n v

/-- Exp-Golomb coding, `ue(v)`: `v + 1` with as many zeros in front as there are bits after its first. -/
def golomb (v : Nat) : List Bool := u (2 * Nat.log2 (v + 1) + 1) (v + 1)

/-- The number with the bits. -/
def value (l : List Bool) : Nat := l.foldl (fun a b => 2 * a + b.toNat) 0

def bitsOf (R : Bytes) : List Bool := R.flatMap fun c => u 8 c.toNat

/-- Emulation prevention: after two zero bytes a byte up to 3 gets a 3 in front. -/
def escape : Nat → Bytes → Bytes
  | _, [] => []
  | zeros, c :: R =>
    if zeros = 2 ∧ c.toNat ≤ 3 then 3 :: c :: escape (if c.toNat = 0 then 1 else 0) R
    else c :: escape (if c.toNat = 0 then zeros + 1 else 0) R

end Verif.Bits
