import Verif.Model.Descr
import Verif.Spec.Descr
import Verif.Lemmas.Auto

/-! # Descriptor headers -/

namespace Verif.Descr

theorem contBytes_length (k : Nat) : ∀ n, (contBytes k n).length = k := by
  induction k with
  | zero => intro n; rfl
  | succ k ih => intro n; simp [contBytes, ih]

theorem lengthBytes_length {k : Nat} (hk : 1 ≤ k) (n : Nat) : (lengthBytes k n).length = k := by
  simp only [lengthBytes, List.length_append, contBytes_length, List.length_cons, List.length_nil]
  omega

theorem shift_or (a x : Nat) (hx : x < 128) : w32(a <<< 7) ||| x = w32(a * 128 + x) := by
  have h1 : w32(a <<< 7) = (a % 33554432) <<< 7 := by
    rw [Nat.shiftLeft_eq, Nat.shiftLeft_eq]; omega
  rw [h1, or_shift_eq (by omega)]
  omega

theorem toNat_small {x : Nat} (hx : x < 256) : (UInt8.ofNat x).toNat = x := by
  rw [ofNat_toNat_mod]; omega

theorem cont_bits : ∀ x < 128, (128 + x) &&& 0x80 ≠ 0 ∧ (128 + x) &&& 0x7F = x := by decide

theorem last_bits : ∀ x < 128, x &&& 0x80 = 0 ∧ x &&& 0x7F = x := by decide

theorem getLength_cont (k : Nat) : ∀ (n a c : Nat) (r : Bytes), a < 4294967296 →
    getLength (contBytes k n ++ r) a c = getLength r w32(a * 128 ^ k + n % 128 ^ k) (c + k) := by
  induction k with
  | zero =>
    intro n a c r ha
    simp only [contBytes, List.nil_append, Nat.pow_zero, Nat.mul_one, Nat.mod_one, Nat.add_zero]
    rw [Nat.mod_eq_of_lt ha]
  | succ k ih =>
    intro n a c r ha
    simp only [contBytes, List.append_assoc, List.cons_append, List.nil_append]
    rw [ih _ _ _ _ ha, getLength]
    have hx : n % 128 < 128 := Nat.mod_lt _ (by omega)
    have hb := cont_bits _ hx
    rw [toNat_small (by omega), if_pos hb.1, hb.2, shift_or _ _ hx]
    congr 1
    · rw [Nat.pow_succ]
      have h1 : n % (128 ^ k * 128) = n / 128 % 128 ^ k * 128 + n % 128 := by
        rw [Nat.mul_comm (128 ^ k) 128, Nat.mod_mul]; omega
      rw [h1, ← Nat.mul_assoc]
      generalize a * 128 ^ k = u
      generalize n / 128 % 128 ^ k = v
      omega

theorem getLength_bytes {k n : Nat} (hk : 1 ≤ k) (hn : n < 128 ^ k) (h32 : n < 4294967296) (r : Bytes) :
    getLength (lengthBytes k n ++ r) 0 1 = .ok (n, 1 + k, r) := by
  obtain ⟨j, rfl⟩ : ∃ j, k = j + 1 := ⟨k - 1, by omega⟩
  have hx : n % 128 < 128 := Nat.mod_lt _ (by omega)
  have hb := last_bits _ hx
  unfold lengthBytes
  rw [List.append_assoc, getLength_cont _ _ _ _ _ (by omega), List.cons_append, getLength,
    toNat_small (by omega), if_neg (by rw [hb.1]; simp), hb.2, shift_or _ _ hx]
  have hj : n / 128 < 128 ^ j := Nat.div_lt_of_lt_mul (by rw [Nat.pow_succ] at hn; omega)
  simp only [Nat.add_sub_cancel, Nat.zero_mul, Nat.zero_add, Nat.mod_eq_of_lt hj, List.nil_append]
  congr 2
  · omega

theorem descr_length {k : Nat} (hk : 1 ≤ k) (tag : Nat) (p : Bytes) :
    (descr k tag p).length = 1 + k + p.length := by
  simp only [descr, List.length_append, be_length, lengthBytes_length hk]; omega

theorem parses_desc {α : Type} {body : Nat → Nat → P α} {k tag : Nat} {p : Bytes} {v : α}
    (hk : 1 ≤ k) (hn : p.length < 128 ^ k) (h32 : 1 + k + p.length < 4294967296) (ht : tag < 256)
    (hb : ParsesAt (body tag (1 + k + p.length)) (1 + k) p v) :
    Parses (getDesc body) (descr k tag p) v := by
  intro r c
  rw [descr_length hk]
  unfold descr
  rw [be1, List.append_assoc, List.cons_append, List.nil_append, List.append_assoc]
  unfold getDesc
  simp only [getLength_bytes hk hn (by omega) (p ++ r), toNat_small ht]
  rw [Nat.mod_eq_of_lt (by omega), Nat.add_comm p.length, hb r]

/-- The header as written, for a size that is not too large. -/
theorem emits_header (tag n : Nat) (h : n < 4294967291) :
    Emits (putHeader tag (5 + n)) (be 1 tag ++ lengthBytes 4 (n % 268435456)) := by
  have e : w32(5 + n + 4294967291) = n := by omega
  have o : ∀ x < 128, x ||| 0x80 = 128 + x := by decide
  have m : ∀ x : Nat, x &&& 0x7F = x % 128 := fun x => Nat.and_two_pow_sub_one_eq_mod x 7
  have s : ∀ x : Nat, x >>> 7 = x / 128 := fun x => by rw [Nat.shiftRight_eq_div_pow]
  unfold putHeader
  rw [e]
  simp only [m, s]
  rw [o _ (Nat.mod_lt _ (by omega)), o _ (Nat.mod_lt _ (by omega)), o _ (Nat.mod_lt _ (by omega))]
  have hb : lengthBytes 4 (n % 268435456) =
      be 1 (128 + n / 128 / 128 / 128 % 128) ++ (be 1 (128 + n / 128 / 128 % 128) ++
        (be 1 (128 + n / 128 % 128) ++ be 1 (n % 128))) := by
    have e1 : n % 268435456 / 128 / 128 / 128 % 128 = n / 128 / 128 / 128 % 128 := by omega
    have e2 : n % 268435456 / 128 / 128 % 128 = n / 128 / 128 % 128 := by omega
    have e3 : n % 268435456 / 128 % 128 = n / 128 % 128 := by omega
    have e4 : n % 268435456 % 128 = n % 128 := by omega
    simp only [lengthBytes, contBytes, be1, List.nil_append, List.cons_append, e1, e2, e3, e4]
  rw [hb]
  exact (emits_put8 _).seq ((emits_put8 _).seq ((emits_put8 _).seq ((emits_put8 _).seq (emits_put8 _))))

/-- Header and payload, when the length fits 28 bits. -/
theorem emits_descr {w : W} {tag : Nat} {p : Bytes} (h : p.length < 2 ^ 28) (hw : Emits w p) :
    Emits (putHeader tag (5 + p.length) ;; w) (descr 4 tag p) := by
  have := (emits_header tag p.length (by omega)).seq hw
  rwa [Nat.mod_eq_of_lt (by omega), List.append_assoc] at this

end Verif.Descr
