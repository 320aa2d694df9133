import Verif.Core.Basic

/-!
# Reading bits of a parameter set
ISOSampleDescriptions.c 835-986.

`int` values are shifted as bit patterns of 32 bits, as compilers do where the standard leaves a shift into the sign bit
undefined; a shift by 32 or more is `ub`.
-/

namespace Verif.Bits

/-- `BitBuffer`: lines 837-850. `mem` is the parameter set, `pos` the distance of `cptr` from its start. -/
structure BB where
  mem : Bytes
  pos : Nat
  cbyte : Nat
  cur : Nat
  left : Nat
  prevent : Bool
  emu : Nat
  deriving DecidableEq, Repr

/-- `BitBuffer_Init` as it is called, with 8 times the number of bytes for a length: lines 852-876, 1031, 1520, 1916.
`prevent_emulation` is set by the callers afterwards. The first byte is read also if there is none. -/
def init (prevent : Bool) (mem : Bytes) : Res BB :=
  if w32(8 * mem.length) > 0x0fffffff then .err .badParam else
  match mem[0]? with
  | none => .ub
  | some c => .ok ⟨mem, 0, c.toNat, 8, w32(8 * mem.length) * 8, prevent, if c.toNat = 0 then 1 else 0⟩

/-- A function that reads. -/
def B (α : Type) := BB → Res (α × BB)

instance : Monad B where
  pure a := fun b => .ok (a, b)
  bind p f := fun b => (p b).bind fun r => f r.1 r.2

/-- The next byte: lines 892-915; `n` is the number of bits wanted. -/
def load (n : Nat) (b : BB) : Res BB :=
  match b.mem[b.pos + 1]? with
  | none => .ub
  | some c =>
    if b.prevent then
      if b.emu ≥ 2 ∧ c.toNat = 3 then
        match b.mem[b.pos + 2]? with
        | none => .ub
        | some c =>
          let left := if b.left < 8 then b.left + 4294967288 else b.left - 8
          if n > left then .err .eof
          else .ok { b with pos := b.pos + 2, cbyte := c.toNat, cur := 8, left := left, emu := if c.toNat = 0 then 1 else 0 }
      else .ok { b with pos := b.pos + 1, cbyte := c.toNat, cur := 8, emu := if c.toNat = 0 then w8(b.emu + 1) else 0 }
    else .ok { b with pos := b.pos + 1, cbyte := c.toNat, cur := 8 }

/-- `GetBits`: lines 878-940. Each level reads at least one bit, so that `n + 1` levels are enough. -/
def getF : Nat → Nat → B Nat
  | 0, _ => fun _ => .ub
  | fuel + 1, n => fun b =>
    if n > b.left then .err .eof else
    (if b.cur = 0 then load n b else .ok b).bind fun b =>
    let my := if n > b.cur then b.cur else n
    let v := b.cbyte >>> (8 - my)
    let b' : BB := { b with left := b.left - my, cur := b.cur - my, cbyte := (b.cbyte <<< my) &&& 0xff }
    if n - my > 0 then
      if n - my ≥ 32 then .ub else
      (getF fuel (n - my) b').bind fun r => .ok (w32(v <<< (n - my)) ||| r.1, r.2)
    else .ok (v, b')

def get (n : Nat) : B Nat := getF (n + 1) n

/-- `GetBytes` for one byte: lines 942-954. -/
def byte : B Nat := do
  let v ← get 8
  pure w8(v)

/-- `(u8)GetBits(bb, 1, &err)`. -/
def flag : B Nat := do
  let v ← get 1
  pure w8(v)

/-- The loop of `read_golomb_uev`: lines 965-974, with `power` and `nbits`. -/
def zerosF : Nat → Nat → Nat → B (Nat × Nat)
  | 0, _, _ => fun _ => .ub
  | fuel + 1, power, nbits => do
    let leading ← get 1
    if leading = 0 then zerosF fuel w32(power * 2) (nbits + 1) else pure (power, nbits)

/-- `read_golomb_uev`: lines 956-986. Each round reads a bit. -/
def ue : B Nat := fun b =>
  (zerosF (b.left + 1) 1 0 b).bind fun r =>
  if r.1.2 > 0 then (get r.1.2 r.2).bind fun v => .ok (w32(pred32 r.1.1 + v.1), v.2)
  else .ok (w32(pred32 r.1.1), r.2)

/-- A loop that reads `n` times. -/
def times {α : Type} : Nat → B α → B (List α)
  | 0, _ => pure []
  | n + 1, p => do
    let x ← p
    let xs ← times n p
    pure (x :: xs)

end Verif.Bits
