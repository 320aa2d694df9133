import Verif.Model.Foreign
import Verif.Spec.Box

/-!
# Boxes of the caller

A box is asked for with a type and a payload, or with a 16-byte identifier and a payload; the type of the latter is `uuid`.
-/

namespace Verif.Foreign

inductive Ask where
  | plain (type : Nat) (payload : Bytes)
  | ident (uuid payload : Bytes)

/-- The call for it. -/
def Ask.call : Ask → Atom
  | .plain t d => newForeign t d
  | .ident u d => newUuid u d

/-- The type, the identifier if the type is `uuid`, and the payload. A box of this type asked for without an identifier has zeros. -/
def Ask.type : Ask → Nat
  | .plain t _ => t
  | .ident _ _ => fcc 'u' 'u' 'i' 'd'

def Ask.payload : Ask → Bytes
  | .plain _ d => d
  | .ident _ d => d

def Ask.uuid : Ask → Option Bytes
  | .plain t _ => if t = fcc 'u' 'u' 'i' 'd' then some (List.replicate 16 0) else none
  | .ident u _ => some u

/-- The bytes in a file: size, type, identifier, payload. -/
def Ask.bytes (a : Ask) : Bytes :=
  be 4 (8 + (a.uuid.getD []).length + a.payload.length) ++ be 4 a.type ++ a.uuid.getD [] ++ a.payload

/-- A type of 32 bits, not 0, that the library has no class for, an identifier of 16 bytes, and a size of 32 bits. -/
structure Ask.Ok (known : Nat → Bool) (a : Ask) : Prop where
  type : 0 < a.type ∧ a.type < 2 ^ 32
  free : known a.type = false
  uuid : ∀ u, a.uuid = some u → u.length = 16
  size : a.bytes.length < 2 ^ 32

end Verif.Foreign
