import Verif.Core.Box

/-!
# What it means for a box to survive being written and parsed
-/

namespace Verif

/-- A box: 32-bit size of the whole box, four-character type, payload. -/
def box (type : Nat) (payload : Bytes) : Bytes :=
  be 4 (8 + payload.length) ++ be 4 type ++ payload

/-- A full box: the payload starts with an 8-bit version and 24 bits of flags. -/
def fullBox (type version flags : Nat) (payload : Bytes) : Bytes :=
  box type (be 1 version ++ be 3 flags ++ payload)

/-- The serializer `ser`, run with the computed size `size`, writes exactly `bytes`; their number
is `size`; and parsing them, followed by anything, gives back `v` and leaves what follows. -/
structure BoxRoundTrip {α : Type} (size : Nat) (ser : W) (body : Hdr → P α) (v : α)
    (bytes : Bytes) : Prop where
  write : runW size ser = .ok bytes
  length : bytes.length = size
  read : ∀ rest : Bytes, ∃ h : Hdr, parseAtom body (bytes ++ rest) = .ok (v, h, rest)

end Verif
