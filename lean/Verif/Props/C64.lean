import Verif.Lemmas.Bits

/-!
# C64: Bits and numbers of a parameter set are read as they were written
-/

namespace Verif.Bits

/-- A field of a parameter set: `u(n)` or `ue(v)` with its value. -/
inductive Field where
  | u (n v : Nat)
  | ue (v : Nat)
  deriving DecidableEq

def Field.bits : Field → List Bool
  | .u n v => Bits.u n v
  | .ue v => golomb v

def Field.val : Field → Nat
  | .u _ v => v
  | .ue v => v

def Field.Ok : Field → Prop
  | .u n v => 1 ≤ n ∧ n ≤ 32 ∧ v < 2 ^ n
  | .ue v => v < 2 ^ 32 - 1

/-- Reading a field with the code; only the width is looked at. -/
def Field.read : Field → B Nat
  | .u n _ => get n
  | .ue _ => Bits.ue

def readAll : List Field → B (List Nat)
  | [] => pure []
  | f :: fs => do
    let v ← f.read
    let vs ← readAll fs
    pure (v :: vs)

theorem reads_all (fs : List Field) (h : ∀ f ∈ fs, f.Ok) : Reads (readAll fs) (fs.flatMap Field.bits) (fs.map Field.val) := by
  induction fs with
  | nil => exact reads_pure _
  | cons f fs ih =>
    have hf : Reads f.read f.bits f.val := by
      cases f with
      | u n v => obtain ⟨h1, h2, h3⟩ := h (.u n v) (by simp); exact reads_u h1 h2 h3
      | ue v => exact reads_ue (h (.ue v) (by simp))
    exact hf.bind ((ih fun g hg => h g (by simp [hg])).bind_nil (reads_pure _))

/-- **C64.** A parameter set is made of any fields, followed by anything, and gets its emulation prevention bytes, wherever
they fall. Reading the fields, with removal of these bytes, gives their values. -/
theorem c64_read_partial (fs : List Field) (h : ∀ f ∈ fs, f.Ok) (R : Bytes) (rest : List Bool) (hR : bitsOf R = fs.flatMap Field.bits ++ rest)
    (hne : R ≠ []) (hlen : (escape 0 R).length < 2 ^ 25) :
    ∃ b b', init true (escape 0 R) = .ok b ∧ readAll fs b = .ok (fs.map Field.val, b') := by
  obtain ⟨b, e, r⟩ := rep_init true hlen hne (by simp)
  rw [hR] at r
  obtain ⟨b', e', _⟩ := reads_all fs h 0 b rest r
  exact ⟨b, b', e, e'⟩

/-- The same without emulation prevention. -/
theorem c64_read_plain (fs : List Field) (h : ∀ f ∈ fs, f.Ok) (R : Bytes) (rest : List Bool) (hR : bitsOf R = fs.flatMap Field.bits ++ rest)
    (hne : R ≠ []) (hlen : R.length < 2 ^ 25) :
    ∃ b b', init false R = .ok b ∧ readAll fs b = .ok (fs.map Field.val, b') := by
  obtain ⟨b, e, r⟩ := rep_init false hlen hne (by simp)
  rw [hR] at r
  obtain ⟨b', e', _⟩ := reads_all fs h 0 b rest r
  exact ⟨b, b', e, e'⟩

/-- The end is not noticed: a field after the last bit is looked for behind the parameter set. The number of bits left starts
8 times too high. -/
theorem c64_past_end (fs : List Field) (h : ∀ f ∈ fs, f.Ok) (R : Bytes) (hR : bitsOf R = fs.flatMap Field.bits)
    (hne : R ≠ []) (hlen : (escape 0 R).length < 2 ^ 25) (n : Nat) (h1 : 1 ≤ n) (hn : n ≤ 32) :
    ∃ b b', init true (escape 0 R) = .ok b ∧ readAll fs b = .ok (fs.map Field.val, b') ∧ get n b' = .ub := by
  obtain ⟨b, e, r⟩ := rep_init true hlen hne (by simp)
  rw [hR, ← List.append_nil (fs.flatMap Field.bits)] at r
  obtain ⟨b', e', r'⟩ := reads_all fs h 0 b [] r
  exact ⟨b, b', e, e', get_end r' h1 (by omega)⟩

/-- A parameter set without bytes is read too. -/
theorem c64_empty (prevent : Bool) : init prevent [] = .ub := rfl

/-! ## What the specification means, and cases that meet the hypotheses -/

/-- Emulation prevention can be undone: the decoding process of the standard. -/
def unescape : Nat → Bytes → Bytes
  | _, [] => []
  | zeros, c :: R =>
    if zeros = 2 ∧ c.toNat = 3 then unescape 0 R
    else c :: unescape (if c.toNat = 0 then zeros + 1 else 0) R

theorem unescape_escape (R : Bytes) : ∀ z, z ≤ 2 → unescape z (escape z R) = R := by
  induction R with
  | nil => intro z _; rfl
  | cons c R ih =>
    intro z hz
    rw [escape]
    by_cases h : z = 2 ∧ c.toNat ≤ 3
    · rw [if_pos h, unescape, if_pos ⟨h.1, by decide⟩, unescape, if_neg (by omega)]
      have := ih (if c.toNat = 0 then 1 else 0) (by split <;> decide)
      split at this <;> simp_all
    · rw [if_neg h, unescape, if_neg (by omega), ih _ (by split <;> omega)]

def demo : List Field := [.u 8 0, .u 8 0, .u 8 1, .ue 0, .ue 7, .u 1 1, .ue 1919, .u 3 5, .u 32 4294967295, .u 7 5, .u 16 0, .u 8 2]

def demoBytes : Bytes := [0, 0, 1, 136, 128, 30, 2, 255, 255, 255, 255, 133, 0, 0, 2, 128]

example : escape 0 demoBytes = [0, 0, 3, 1, 136, 128, 30, 2, 255, 255, 255, 255, 133, 0, 0, 3, 2, 128] := by decide

theorem demo_bits : bitsOf demoBytes = demo.flatMap Field.bits ++ [true, false, false, false, false, false, false, false] := by
  decide +kernel

example : ∃ b b', init true (escape 0 demoBytes) = .ok b ∧ readAll demo b = .ok ([0, 0, 1, 0, 7, 1, 1919, 5, 4294967295, 5, 0, 2], b') :=
  c64_read_partial demo (by simp [demo, Field.Ok]) demoBytes _ demo_bits (by decide) (by decide)

/-- A parameter set that ends where its last field ends. -/
example : ∃ b b', init true (escape 0 [7, 0xa6]) = .ok b ∧ readAll [.u 8 7, .ue 0, .ue 1, .u 4 6] b = .ok ([7, 0, 1, 6], b') ∧
    get 1 b' = .ub :=
  c64_past_end [.u 8 7, .ue 0, .ue 1, .u 4 6] (by simp [Field.Ok]) [7, 0xa6] (by decide +kernel) (by decide) (by decide) 1
    (by decide) (by decide)

example : golomb 0 = [true] ∧ golomb 1 = [false, true, false] ∧ golomb 2 = [false, true, true] ∧
    golomb 7 = [false, false, false, true, false, false, false] := by decide

end Verif.Bits
