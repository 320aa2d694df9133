import Verif.Core.Codec

/-!
# Compositional facts about the writer and the parser
-/

namespace Verif

/-! ## Big-endian arithmetic -/

theorem ofNat_and_255 (v : Nat) : UInt8.ofNat (v &&& 255) = UInt8.ofNat v := by
  rw [show (255:Nat) = 2 ^ 8 - 1 from rfl, Nat.and_two_pow_sub_one_eq_mod]
  exact UInt8.ofNat_mod_size

theorem ofNat_toNat_mod (v : Nat) : (UInt8.ofNat v).toNat = v % 256 := by
  simp

theorem unbe_append (a b : Bytes) : unbe (a ++ b) = unbe a * 256 ^ b.length + unbe b := by
  have gen : ∀ (l : Bytes) (x : Nat),
      l.foldl (fun a b => a * 256 + b.toNat) x = x * 256 ^ l.length + unbe l := by
    intro l
    induction l with
    | nil => intro x; simp [unbe]
    | cons c l ih =>
      intro x
      simp only [List.foldl_cons, List.length_cons, unbe]
      rw [ih, ih (0 * 256 + c.toNat)]
      simp [Nat.pow_succ, Nat.add_mul, Nat.mul_assoc, Nat.mul_comm 256, Nat.add_assoc]
  unfold unbe
  rw [List.foldl_append, gen]
  rfl

theorem unbe_lt (l : Bytes) : unbe l < 256 ^ l.length := by
  induction l with
  | nil => simp [unbe]
  | cons c l ih =>
    have h := unbe_append [c] l
    simp only [List.singleton_append] at h
    have hc : unbe [c] = c.toNat := by simp [unbe]
    have := c.toNat_lt
    rw [h, hc, List.length_cons, Nat.pow_succ]
    have h2 : c.toNat * 256 ^ l.length + 256 ^ l.length ≤ 256 ^ l.length * 256 := by
      have : (c.toNat + 1) * 256 ^ l.length ≤ 256 * 256 ^ l.length :=
        Nat.mul_le_mul_right _ (by omega)
      rw [Nat.add_mul] at this; omega
    omega

theorem unbe_be (n v : Nat) : unbe (be n v) = v % 256 ^ n := by
  induction n with
  | zero => simp [be, unbe, Nat.mod_one]
  | succ n ih =>
    rw [be, ← List.singleton_append, unbe_append, ih, be_length]
    have : unbe [UInt8.ofNat (v / 256 ^ n)] = v / 256 ^ n % 256 := by simp [unbe]
    rw [this, Nat.pow_succ, Nat.mod_mul]
    rw [Nat.mul_comm]; omega

theorem be_unbe (l : Bytes) : be l.length (unbe l) = l := by
  have key : ∀ (n a b : Nat), b < 256 ^ n → be n (a * 256 ^ n + b) = be n b := by
    have gen : ∀ (m n a b : Nat), m ≤ n → be m (a * 256 ^ n + b) = be m b := by
      intro m
      induction m with
      | zero => intros; rfl
      | succ m ih =>
        intro n a b h
        simp only [be]
        rw [ih n a b (by omega)]
        congr 1
        apply UInt8.toNat_inj.mp
        simp only [ofNat_toNat_mod]
        obtain ⟨k, rfl⟩ : ∃ k, n = m + 1 + k := ⟨n - m - 1, by omega⟩
        have e : a * 256 ^ (m + 1 + k) + b = b + 256 ^ m * (256 * (a * 256 ^ k)) := by
          rw [Nat.pow_add, Nat.pow_succ]
          rw [Nat.add_comm]
          congr 1
          simp only [Nat.mul_assoc, Nat.mul_left_comm, Nat.mul_comm]
        rw [e, Nat.add_mul_div_left _ _ (Nat.pow_pos (by omega)), Nat.add_mul_mod_self_left]
    intro n a b _; exact gen n n a b (Nat.le_refl _)
  induction l with
  | nil => rfl
  | cons c l ih =>
    have h := unbe_append [c] l
    simp only [List.singleton_append] at h
    have hc : unbe [c] = c.toNat := by simp [unbe]
    rw [h, hc, List.length_cons, be, key _ _ _ (unbe_lt l), ih]
    congr 1
    rw [Nat.mul_comm, Nat.mul_add_div (Nat.pow_pos (by omega)), Nat.div_eq_of_lt (unbe_lt l)]
    simp

theorem be1 (v : Nat) : be 1 v = [UInt8.ofNat v] := by simp [be]
theorem be2 (v : Nat) : be 2 v = [UInt8.ofNat (v / 256), UInt8.ofNat v] := by simp [be]
theorem be3 (v : Nat) :
    be 3 v = [UInt8.ofNat (v / 65536), UInt8.ofNat (v / 256), UInt8.ofNat v] := by simp [be]
theorem be4 (v : Nat) : be 4 v = [UInt8.ofNat (v / 16777216), UInt8.ofNat (v / 65536),
    UInt8.ofNat (v / 256), UInt8.ofNat v] := by simp [be]

theorem put8_eq (v : Nat) : put8 v = putRaw (be 1 v) := by simp [put8, be]
theorem put16_eq (v : Nat) : put16 v = putRaw (be 2 v) := by
  simp only [put16, ofNat_and_255, Nat.shiftRight_eq_div_pow]; simp [be]
theorem put24_eq (v : Nat) : put24 v = putRaw (be 3 v) := by
  simp only [put24, ofNat_and_255, Nat.shiftRight_eq_div_pow]; simp [be]
theorem put32_eq (v : Nat) : put32 v = putRaw (be 4 v) := by
  simp only [put32, ofNat_and_255, Nat.shiftRight_eq_div_pow]; simp [be]
theorem put64_eq (v : Nat) : put64 v = putRaw (be 8 v) := by
  simp only [put64, ofNat_and_255, Nat.shiftRight_eq_div_pow]; simp [be]

/-! ## `Emits` -/

/-- `w` appends exactly `bs` when they fit in the declared size, and fails with `MP4IOErr`
otherwise. -/
def Emits (w : W) (bs : Bytes) : Prop :=
  ∀ s : WS, s.out.length ≤ s.size → s.out.length + bs.length < 4294967296 →
    w s = if s.out.length + bs.length ≤ s.size then .ok { s with out := s.out ++ bs }
      else .err .ioErr

theorem emits_putRaw (bs : Bytes) : Emits (putRaw bs) bs := by
  intro s _ h2
  unfold putRaw
  rw [Nat.mod_eq_of_lt h2]
  by_cases h : s.out.length + bs.length ≤ s.size
  · rw [if_neg (by omega), if_pos h]
  · rw [if_pos (by omega), if_neg h]

theorem emits_bytes (bs : Bytes) : Emits (putBytes bs) bs := emits_putRaw bs
theorem emits_put8 (v : Nat) : Emits (put8 v) (be 1 v) := by rw [put8_eq]; exact emits_putRaw _
theorem emits_put16 (v : Nat) : Emits (put16 v) (be 2 v) := by rw [put16_eq]; exact emits_putRaw _
theorem emits_put24 (v : Nat) : Emits (put24 v) (be 3 v) := by rw [put24_eq]; exact emits_putRaw _
theorem emits_put32 (v : Nat) : Emits (put32 v) (be 4 v) := by rw [put32_eq]; exact emits_putRaw _
theorem emits_put64 (v : Nat) : Emits (put64 v) (be 8 v) := by rw [put64_eq]; exact emits_putRaw _

theorem emits_skip : Emits W.skip [] := by
  intro s h1 _
  simp [W.skip, h1]

theorem Emits.seq {a b : W} {x y : Bytes} (ha : Emits a x) (hb : Emits b y) :
    Emits (a ;; b) (x ++ y) := by
  intro s h1 h2
  simp only [List.length_append] at h2
  unfold W.seq
  rw [ha s h1 (by omega)]
  by_cases h : s.out.length + x.length ≤ s.size
  · rw [if_pos h]
    simp only [Res.bind]
    rw [hb _ (by simp; omega) (by simp; omega)]
    simp only [List.length_append, List.append_assoc, Nat.add_assoc]
  · rw [if_neg h, if_neg (by simp only [List.length_append]; omega)]
    rfl

theorem Emits.each {α : Type u} {f : α → W} {g : α → Bytes} (xs : List α)
    (h : ∀ x ∈ xs, Emits (f x) (g x)) : Emits (W.each f xs) (xs.flatMap g) := by
  induction xs with
  | nil => exact emits_skip
  | cons x xs ih =>
    simp only [W.each, List.flatMap_cons]
    exact (h x (by simp)).seq (ih fun y hy => h y (by simp [hy]))

theorem Emits.run {w : W} {bs : Bytes} (h : Emits w bs) {size : Nat} (hl : bs.length < 4294967296) :
    runW size w = if bs.length ≤ size then .ok bs else .err .ioErr := by
  unfold runW
  rw [h ⟨[], size⟩ (by simp) (by simpa using hl)]
  by_cases hs : bs.length ≤ size
  · simp [hs]
  · simp [hs]

theorem Emits.run_ok {w : W} {bs : Bytes} (h : Emits w bs) {size : Nat} (hs : bs.length = size)
    (hl : size < 4294967296) : runW size w = .ok bs := by
  rw [h.run (by omega), if_pos (by omega)]

theorem emits_serBase (size type : Nat) : Emits (serBase size type) (be 4 size ++ be 4 type) :=
  (emits_put32 _).seq (emits_put32 _)

theorem emits_serFull (size type version flags : Nat) :
    Emits (serFull size type version flags)
      ((be 4 size ++ be 4 type) ++ (be 1 version ++ be 3 flags)) :=
  (emits_serBase _ _).seq ((emits_put8 _).seq (emits_put24 _))

/-! ## `Parses` -/

/-- `p` consumes exactly the bytes `bs`, whatever follows, and returns `v`. -/
def Parses {α : Type u} (p : P α) (bs : Bytes) (v : α) : Prop :=
  ∀ (r : Bytes) (k : Nat), p ⟨bs ++ r, k⟩ = .ok (v, ⟨r, k + bs.length⟩)

theorem P.bind_apply {α β : Type} (p : P α) (f : α → P β) (s : PS) :
    (p >>= f) s = match p s with
      | .ok (a, s') => f a s'
      | .err e => .err e
      | .ub => .ub := rfl

theorem P.pure_apply {α : Type} (a : α) (s : PS) : (pure a : P α) s = .ok (a, s) := rfl

theorem parses_pure {α : Type} (a : α) : Parses (pure a : P α) [] a := by
  intro r k; rfl

theorem Parses.bind {α β : Type} {p : P α} {f : α → P β} {x y : Bytes} {a : α} {b : β}
    (hp : Parses p x a) (hf : Parses (f a) y b) : Parses (p >>= f) (x ++ y) b := by
  intro r k
  rw [P.bind_apply, List.append_assoc, hp]
  simp only
  rw [hf]
  simp [Nat.add_assoc]

/-- Bind with the remaining computation consuming nothing. -/
theorem Parses.bind_nil {α β : Type} {p : P α} {f : α → P β} {x : Bytes} {a : α} {b : β}
    (hp : Parses p x a) (hf : Parses (f a) [] b) : Parses (p >>= f) x b := by
  have := hp.bind hf
  simpa using this

theorem Parses.map {α β : Type} {p : P α} {x : Bytes} {a : α} (f : α → β)
    (hp : Parses p x a) : Parses (p >>= fun v => pure (f v)) x (f a) :=
  hp.bind_nil (parses_pure _)

theorem Parses.congr {α : Type} {p : P α} {x y : Bytes} {a b : α} (h : Parses p x a)
    (hx : x = y) (ha : a = b) : Parses p y b := by subst hx; subst ha; exact h

theorem or_shift_eq {a b n : Nat} (h : b < 2 ^ n) : a <<< n ||| b = a * 2 ^ n + b := by
  rw [← Nat.shiftLeft_add_eq_or_of_lt h, Nat.shiftLeft_eq]

theorem rd16_cons (a b : UInt8) (r : Bytes) :
    rd16 (a :: b :: r) = .ok (a.toNat * 256 + b.toNat, r) := by
  have hb := b.toNat_lt
  simp only [rd16, rd8, List.length_cons, Res.ok_bind, Res.pure_def]
  rw [if_neg (by omega), or_shift_eq (n := 8) (by omega)]

theorem rd32_cons (a b c d : UInt8) (r : Bytes) :
    rd32 (a :: b :: c :: d :: r) =
      .ok (((a.toNat * 256 + b.toNat) * 256 + c.toNat) * 256 + d.toNat, r) := by
  have ha := a.toNat_lt
  have hb := b.toNat_lt
  have hc := c.toNat_lt
  have hd := d.toNat_lt
  simp only [rd32, rd16_cons, List.length_cons, Res.ok_bind, Res.pure_def]
  rw [if_neg (by omega)]
  have e : (a.toNat * 256 + b.toNat) <<< 16 % 4294967296 = (a.toNat * 256 + b.toNat) <<< 16 := by
    rw [Nat.shiftLeft_eq, Nat.mod_eq_of_lt (by omega)]
  rw [e, or_shift_eq (n := 16) (by omega)]
  have h : (a.toNat * 256 + b.toNat) * 2 ^ 16 + (c.toNat * 256 + d.toNat) =
      ((a.toNat * 256 + b.toNat) * 256 + c.toNat) * 256 + d.toNat := by omega
  rw [h]

theorem parses_get8 (v : Nat) : Parses get8 (be 1 v) (v % 256) := by
  intro r k
  simp [get8, be, rd8]

theorem parses_get16 (v : Nat) : Parses get16 (be 2 v) (v % 65536) := by
  intro r k
  simp only [get16, be2, List.cons_append, List.nil_append, rd16_cons, Res.ok_bind, Res.pure_def,
    ofNat_toNat_mod, List.length_cons, List.length_nil]
  congr 2
  omega

theorem rd32_be (v : Nat) (r : Bytes) : rd32 (be 4 v ++ r) = .ok (v % 4294967296, r) := by
  simp only [be4, List.cons_append, List.nil_append, rd32_cons, ofNat_toNat_mod]
  congr 2
  omega

theorem parses_get32 (v : Nat) : Parses get32 (be 4 v) (v % 4294967296) := by
  intro r k
  simp only [get32, rd32_be, Res.ok_bind, Res.pure_def, be_length]

theorem be8_split (v : Nat) : be 8 v = be 4 (v / 4294967296) ++ be 4 v := by
  simp [be, Nat.div_div_eq_div_mul]

theorem parses_get64 (v : Nat) : Parses get64 (be 8 v) (v % 18446744073709551616) := by
  intro r k
  have e : ∀ x : Nat, x <<< 32 = x * 4294967296 := fun x => Nat.shiftLeft_eq x 32
  have h : (v / 4294967296 % 4294967296 * 4294967296 % 18446744073709551616 + v % 4294967296)
      % 18446744073709551616 = v % 18446744073709551616 := by omega
  unfold get64
  rw [be_length, be8_split, List.append_assoc]
  simp only []
  rw [rd32_be, Res.ok_bind]
  simp only []
  rw [rd32_be, Res.ok_bind]
  simp only []
  rw [e, h]
  rfl

theorem parses_get8' {v : Nat} (h : v < 256) : Parses get8 (be 1 v) v := by
  have := parses_get8 v; rwa [Nat.mod_eq_of_lt h] at this
theorem parses_get16' {v : Nat} (h : v < 65536) : Parses get16 (be 2 v) v := by
  have := parses_get16 v; rwa [Nat.mod_eq_of_lt h] at this
theorem parses_get32' {v : Nat} (h : v < 4294967296) : Parses get32 (be 4 v) v := by
  have := parses_get32 v; rwa [Nat.mod_eq_of_lt h] at this
theorem parses_get64' {v : Nat} (h : v < 18446744073709551616) : Parses get64 (be 8 v) v := by
  have := parses_get64 v; rwa [Nat.mod_eq_of_lt h] at this

theorem parses_getBytes {bs : Bytes} {n : Nat} (h : bs.length = n) : Parses (getBytes n) bs bs := by
  intro r k
  unfold getBytes
  subst h
  simp

theorem parses_repeat {α : Type} {p : P α} (xs : List α) (g : α → Bytes)
    (h : ∀ x ∈ xs, Parses p (g x) x) {n : Nat} (hn : xs.length = n) :
    Parses (P.repeat n p) (xs.flatMap g) xs := by
  subst hn
  induction xs with
  | nil => exact parses_pure _
  | cons x xs ih =>
    simp only [P.repeat, List.flatMap_cons, List.length_cons]
    exact (h x (by simp)).bind ((ih fun y hy => h y (by simp [hy])).bind_nil (parses_pure _))

theorem versionFlags_be (v f : Nat) (hf : f < 16777216) :
    be 1 v ++ be 3 f = be 4 (v * 16777216 + f) := by
  simp only [be1, be3, be4, List.cons_append, List.nil_append]
  congr 1
  · apply UInt8.toNat_inj.mp; simp only [ofNat_toNat_mod]; omega
  congr 1
  · apply UInt8.toNat_inj.mp; simp only [ofNat_toNat_mod]; omega
  congr 1
  · apply UInt8.toNat_inj.mp; simp only [ofNat_toNat_mod]; omega
  congr 1
  · apply UInt8.toNat_inj.mp; simp only [ofNat_toNat_mod]; omega

theorem parses_versionFlags {v f : Nat} (hv : v < 256) (hf : f < 16777216) :
    Parses getVersionFlags (be 1 v ++ be 3 f) (v, f) := by
  rw [versionFlags_be v f hf]
  unfold getVersionFlags
  refine (parses_get32' (by omega)).bind_nil ?_
  have h1 : (v * 16777216 + f) >>> 24 = v := by
    rw [Nat.shiftRight_eq_div_pow]; omega
  have h2 : (v * 16777216 + f) &&& 0xFFFFFF = f := by
    rw [show 0xFFFFFF = 2 ^ 24 - 1 from rfl, Nat.and_two_pow_sub_one_eq_mod]; omega
  rw [h1, h2]
  exact parses_pure _

end Verif
