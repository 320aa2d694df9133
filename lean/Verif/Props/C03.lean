import Verif.Lemmas.Codec

/-!
# C03 — integers written to a box are read back unchanged
-/

namespace Verif

/-- The integer widths of the `PUT` macros. -/
inductive Width | w8 | w16 | w24 | w32 | w64
  deriving DecidableEq, Repr

/-- Number of bytes of a width. -/
def Width.bytes : Width → Nat
  | .w8 => 1 | .w16 => 2 | .w24 => 3 | .w32 => 4 | .w64 => 8

/-- The `PUT` macro of a width. -/
def putW : Width → Nat → W
  | .w8 => put8 | .w16 => put16 | .w24 => put24 | .w32 => put32 | .w64 => put64

/-- The `GET` macro of a width; there is no `GET24`, 24-bit fields are read as three bytes
(or as part of the 32-bit version/flags word). -/
def getW : Width → P Nat
  | .w8 => get8 | .w16 => get16 | .w32 => get32 | .w64 => get64
  | .w24 => do
    let a ← get8; let b ← get16
    pure (a * 65536 + b)

/-- What is written is the value, most significant byte first, and nothing else. -/
theorem c03_put_big_endian (w : Width) (v : Nat) (pre : Bytes) (size : Nat)
    (hfit : pre.length + w.bytes ≤ size) (hsize : size < 4294967296) :
    ∃ bs : Bytes, putW w v ⟨pre, size⟩ = .ok ⟨pre ++ bs, size⟩ ∧ bs.length = w.bytes ∧
      ∀ i, (h : i < bs.length) → (bs[i]).toNat = v / 256 ^ (w.bytes - 1 - i) % 256 := by
  have hbe : ∀ n i, (h : i < (be n v).length) → ((be n v)[i]).toNat = v / 256 ^ (n - 1 - i) % 256 := by
    intro n
    induction n with
    | zero => intro i h; simp [be] at h
    | succ n ih =>
      intro i h
      cases i with
      | zero => simp [be]
      | succ i =>
        simp only [be, List.getElem_cons_succ]
        simp at h
        rw [ih i (by simpa using h)]
        congr 3; omega
  have hem : Emits (putW w v) (be w.bytes v) := by
    cases w
    · exact emits_put8 v
    · exact emits_put16 v
    · exact emits_put24 v
    · exact emits_put32 v
    · exact emits_put64 v
  refine ⟨be w.bytes v, ?_, by simp, hbe _⟩
  rw [hem ⟨pre, size⟩ (by simp; omega) (by simp; omega)]
  simp [hfit]

/-- Writing an integer of any width and reading it back gives the integer reduced to the width,
consumes exactly the bytes written and leaves what follows. -/
theorem c03_round_trip (w : Width) (v : Nat) (rest : Bytes) (k : Nat) :
    ∃ bs : Bytes, runW w.bytes (putW w v) = .ok bs ∧
      getW w ⟨bs ++ rest, k⟩ = .ok (v % 256 ^ w.bytes, ⟨rest, k + w.bytes⟩) := by
  cases w
  · exact ⟨_, (emits_put8 v).run_ok (by simp; rfl) (by decide), parses_get8 v rest k⟩
  · exact ⟨_, (emits_put16 v).run_ok (by simp; rfl) (by decide), parses_get16 v rest k⟩
  · refine ⟨_, (emits_put24 v).run_ok (by simp; rfl) (by decide), ?_⟩
    have e : be 3 v = be 1 (v / 65536) ++ be 2 v := by simp [be]
    have := (Parses.bind (f := fun a => do let b ← get16; pure (a * 65536 + b))
      (parses_get8 (v / 65536)) ((parses_get16 v).map
      (fun b => v / 65536 % 256 * 65536 + b))) rest k
    rw [e]
    refine Eq.trans this ?_
    have h : v / 65536 % 256 * 65536 + v % 65536 = v % 256 ^ 3 := by omega
    simp only [h, Width.bytes, List.length_append, be_length]
  · exact ⟨_, (emits_put32 v).run_ok (by simp; rfl) (by decide), parses_get32 v rest k⟩
  · exact ⟨_, (emits_put64 v).run_ok (by simp; rfl) (by decide), parses_get64 v rest k⟩

/-- A read that needs more bytes than remain fails with `MP4IOErr`. (`Res.err` carries no stream
state: a failed parse abandons the box. The single-field readers check before consuming.) -/
theorem c03_short_read (w : Width) (rest : Bytes) (k : Nat) (h : rest.length < w.bytes) :
    getW w ⟨rest, k⟩ = .err .ioErr := by
  match w, rest, h with
  | .w8, [], _ => rfl
  | .w16, [], _ => rfl
  | .w16, [_], _ => rfl
  | .w24, [], _ => rfl
  | .w24, [_], _ => rfl
  | .w24, [_, _], _ => rfl
  | .w32, [], _ => rfl
  | .w32, [_], _ => rfl
  | .w32, [_, _], _ => rfl
  | .w32, [_, _, _], _ => rfl
  | .w64, [], _ => rfl
  | .w64, [_], _ => rfl
  | .w64, [_, _], _ => rfl
  | .w64, [_, _, _], _ => rfl
  | .w64, [a, b, c, d], _ => simp only [getW, get64, rd32_cons, Res.ok_bind]; rfl
  | .w64, [a, b, c, d, _], _ => simp only [getW, get64, rd32_cons, Res.ok_bind]; rfl
  | .w64, [a, b, c, d, _, _], _ => simp only [getW, get64, rd32_cons, Res.ok_bind]; rfl
  | .w64, [a, b, c, d, _, _, _], _ => simp only [getW, get64, rd32_cons, Res.ok_bind]; rfl
  | .w16, _ :: _ :: _, h => simp [Width.bytes] at h; omega
  | .w24, _ :: _ :: _ :: _, h => simp [Width.bytes] at h; omega
  | .w32, _ :: _ :: _ :: _ :: _, h => simp [Width.bytes] at h; omega
  | .w64, _ :: _ :: _ :: _ :: _ :: _ :: _ :: _ :: _, h => simp [Width.bytes] at h; omega

example : runW 8 (putW .w64 0x0102030405060708) = .ok [1, 2, 3, 4, 5, 6, 7, 8] := by decide
example : getW .w32 ⟨[0xFF, 0xFE, 0, 1, 9], 0⟩ = .ok (0xFFFE0001, ⟨[9], 4⟩) := by decide

end Verif
