import Verif.Core.Codec

/-! # The layout of a descriptor -/

namespace Verif.Descr

/-- The leading length bytes: `k` groups of seven bits, the top bit set. -/
def contBytes : Nat → Nat → Bytes
  | 0, _ => []
  | k + 1, n => contBytes k (n / 128) ++ [UInt8.ofNat (128 + n % 128)]

/-- The length `n` in `k` bytes of seven bits (ISO/IEC 14496-1, 8.3.3): all but the last have the
top bit set. -/
def lengthBytes (k n : Nat) : Bytes := contBytes (k - 1) (n / 128) ++ [UInt8.ofNat (n % 128)]

/-- A descriptor: tag, length in `k` bytes, payload. -/
def descr (k tag : Nat) (payload : Bytes) : Bytes :=
  be 1 tag ++ (lengthBytes k payload.length ++ payload)

end Verif.Descr
