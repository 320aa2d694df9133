import Verif.Lemmas.Config

/-!
# C55: parameter sets of a VVC decoder configuration are returned as added
-/

namespace Verif.Config.Vvc

/-! ## The box -/

/-- Presence flags of the sub-layers, the first one in bit `bit`, downwards. -/
def flagsOf (bit : Nat) : List (Nat × Nat) → Nat
  | [] => 0
  | s :: ss => (if s.1 ≠ 0 then 2 ^ bit else 0) + flagsOf (bit - 1) ss

/-- The level bytes of the sub-layers that have one. -/
def levelBytes (l : List (Nat × Nat)) : Bytes := (l.filter fun s => s.1 ≠ 0).flatMap fun s => be 1 s.2

/-- Levels of the sub-layers, from the highest one to the lowest. -/
def layers (c : Vvc) : List (Nat × Nat) := (c.ptl.subs.take (c.sublayers - 1)).reverse

/-- The profile, tier and level part of ISO/IEC 14496-15, 11.2.4.2, without sub-profiles. -/
def ptlBytes (c : Vvc) : Bytes :=
  be 2 (128 * c.ols + 16 * c.sublayers + 4 * c.constantRate + c.chroma) ++ (be 1 (32 * c.depth + 31) ++
  (be 1 c.ptl.bytes ++ (be 1 (2 * c.ptl.profile + c.ptl.tier) ++ (be 1 c.ptl.level ++
  (be 1 (128 * c.ptl.frameOnly + 64 * c.ptl.multiLayer + c.ptl.upper) ++ (c.ptl.lower ++
  ((if c.sublayers ≥ 2 then be 1 (flagsOf 7 (layers c)) ++ levelBytes (layers c) else []) ++
  (be 1 0 ++ (be 2 c.width ++ (be 2 c.height ++ be 2 c.frameRate))))))))))

/-- One array; operating point and decoding capability information (12, 13) come without a number. -/
def arrBytes (a : Arr) : Bytes :=
  be 1 (128 * a.complete + a.type) ++
  ((if a.type = 12 ∨ a.type = 13 then [] else be 2 a.nals.length) ++ a.nals.flatMap nalBytes)

/-- The arrays that are not empty. -/
def filled (as : List Arr) : List Arr := as.filter fun a => decide (a.nals ≠ [])

def record (c : Vvc) : Bytes :=
  be 1 (248 + 2 * c.lengthSize1 + c.ptlPresent) ++
  ((if c.ptlPresent = 1 then ptlBytes c else []) ++
  (be 1 (filled c.arrays).length ++ (filled c.arrays).flatMap arrBytes))

def layout (c : Vvc) : Bytes := fullBox (fcc 'v' 'v' 'c' 'C') c.version c.flags (record c)

/-- Values of the profile, tier and level part fit their fields, there is at least one constraint
byte, and no sub-profile. -/
structure PtlFits (c : Vvc) : Prop where
  ols : c.ols < 512
  sublayers : c.sublayers < 8
  constantRate : c.constantRate < 4
  chroma : c.chroma < 4
  depth : c.depth < 8
  bytes : 1 ≤ c.ptl.bytes ∧ c.ptl.bytes < 64
  profile : c.ptl.profile < 128
  tier : c.ptl.tier < 2
  level : c.ptl.level < 256
  frameOnly : c.ptl.frameOnly < 2
  multiLayer : c.ptl.multiLayer < 2
  upper : c.ptl.upper < 64
  lower : c.ptl.lower.length = c.ptl.bytes - 1
  length : c.ptl.subs.length = 8
  used : ∀ s ∈ c.ptl.subs.take (c.sublayers - 1), s = (0, 0) ∨ (s.1 = 1 ∧ s.2 < 256)
  unused : c.ptl.subs.drop (c.sublayers - 1) = List.replicate (8 - (c.sublayers - 1)) (0, 0)
  subProfiles : c.ptl.subProfileCount = 0 ∧ c.ptl.subProfiles = []
  sizes : c.width < 65536 ∧ c.height < 65536 ∧ c.frameRate < 65536

/-- Everything the profile, tier and level part holds is unset. -/
def NoPtl (c : Vvc) : Prop :=
  c.ols = 0 ∧ c.sublayers = 0 ∧ c.constantRate = 0 ∧ c.chroma = 0 ∧ c.depth = 0 ∧ c.ptl = noPtl ∧
  c.width = 0 ∧ c.height = 0 ∧ c.frameRate = 0

structure ArrFits (a : Arr) : Prop where
  complete : a.complete < 2
  empty : a.nals = [] → a.complete = 1
  count : a.nals.length < 65536
  single : a.type = 12 ∨ a.type = 13 → a.nals.length ≤ 1
  sets : ∀ b ∈ a.nals, b.length < 65536

structure Fits (c : Vvc) : Prop where
  version : c.version < 256
  flags : c.flags < 2 ^ 24
  lengthSize1 : c.lengthSize1 < 4
  present : c.ptlPresent < 2
  ptl : c.ptlPresent = 1 → PtlFits c
  noPtl : c.ptlPresent = 0 → NoPtl c
  types : c.arrays.map Arr.type = [15, 16, 14, 12, 13, 17, 23]
  arrays : ∀ a ∈ c.arrays, ArrFits a
  count : c.count = (filled c.arrays).length
  size : (layout c).length < 2 ^ 32

/-! ## Bits -/

theorem field (x k n : Nat) : (x &&& ((2 ^ n - 1) <<< k)) >>> k = x / 2 ^ k % 2 ^ n := by
  rw [Nat.shiftRight_and_distrib, Nat.shiftLeft_shiftRight, Nat.and_two_pow_sub_one_eq_mod,
    Nat.shiftRight_eq_div_pow]

theorem and_ne (x k : Nat) : (x &&& 2 ^ k ≠ 0) ↔ x / 2 ^ k % 2 = 1 := by
  have h := field x k 1
  simp only [Nat.pow_one, Nat.reduceSub, Nat.one_shiftLeft] at h
  have h2 : x &&& 2 ^ k = x / 2 ^ k % 2 * 2 ^ k := by
    rw [← h, Nat.shiftRight_eq_div_pow]
    have hle : x &&& 2 ^ k ≤ 2 ^ k := Nat.and_le_right
    have hd : 2 ^ k ∣ x &&& 2 ^ k := by
      rw [Nat.dvd_iff_mod_eq_zero, ← Nat.and_two_pow_sub_one_eq_mod, Nat.and_assoc, Nat.and_two_pow_sub_one_eq_mod,
        Nat.mod_self, Nat.and_zero]
    rw [Nat.div_mul_cancel hd]
  rw [h2]
  have := Nat.two_pow_pos k
  rcases Nat.mod_two_eq_zero_or_one (x / 2 ^ k) with e | e <;> rw [e] <;> simp

theorem word_bits {a b c d : Nat} (ha : a < 512) (hb : b < 8) (hc : c < 4) (hd : d < 4) :
    (w32(a <<< 7) ||| w32(b <<< 4) ||| w32(c <<< 2) ||| d) = 128 * a + 16 * b + 4 * c + d := by
  have e1 : a <<< 7 = a * 128 := by rw [Nat.shiftLeft_eq]
  have e2 : b <<< 4 = b * 16 := by rw [Nat.shiftLeft_eq]
  have e3 : c <<< 2 = c * 4 := by rw [Nat.shiftLeft_eq]
  rw [Nat.mod_eq_of_lt (show a <<< 7 < 4294967296 by omega), Nat.mod_eq_of_lt (show b <<< 4 < 4294967296 by omega),
    Nat.mod_eq_of_lt (show c <<< 2 < 4294967296 by omega), Nat.or_assoc, Nat.or_assoc,
    ← Nat.shiftLeft_add_eq_or_of_lt (i := 2) (by omega), ← Nat.shiftLeft_add_eq_or_of_lt (i := 4) (by omega),
    ← Nat.shiftLeft_add_eq_or_of_lt (i := 7) (by omega)]
  omega

theorem word_fields (x : Nat) (hx : x < 65536) :
    (x &&& 0xff80) >>> 7 = x / 128 ∧ (x &&& 0x0070) >>> 4 = x / 16 % 8 ∧ (x &&& 0x000c) >>> 2 = x / 4 % 4 ∧
      x &&& 3 = x % 4 := by
  have h1 := field x 7 9
  have h2 := field x 4 3
  have h3 := field x 2 2
  have h4 := Nat.and_two_pow_sub_one_eq_mod x 2
  simp only [Nat.reducePow, Nat.reduceSub, Nat.reduceShiftLeft] at h1 h2 h3 h4
  refine ⟨?_, h2, h3, h4⟩
  rw [h1]
  omega

theorem byte_first : ∀ (a : Fin 4) (b : Fin 2), (0xF8 ||| w32(a.val <<< 1) ||| b.val) = 248 + 2 * a.val + b.val := by
  decide
theorem unbyte_first : ∀ (a : Fin 4) (b : Fin 2),
    ((248 + 2 * a.val + b.val) &&& 6) >>> 1 = a.val ∧ (248 + 2 * a.val + b.val) &&& 1 = b.val := by decide
theorem byte_bitDepth : ∀ a : Fin 8, (w32(a.val <<< 5) ||| 0x1F) = 32 * a.val + 31 := by decide
theorem unbyte_bitDepth : ∀ a : Fin 8, ((32 * a.val + 31) &&& 0xe0) >>> 5 = a.val := by decide
theorem byte_profile : ∀ (a : Fin 128) (b : Fin 2), (w32(a.val <<< 1) ||| b.val) = 2 * a.val + b.val := by
  decide +kernel
theorem unbyte_profile : ∀ (a : Fin 128) (b : Fin 2),
    ((2 * a.val + b.val) &&& 0xfe) >>> 1 = a.val ∧ (2 * a.val + b.val) &&& 1 = b.val := by decide +kernel
theorem byte_upper : ∀ (a b : Fin 2) (n : Fin 64),
    (w32(a.val <<< 7) ||| w32(b.val <<< 6) ||| n.val) = 128 * a.val + 64 * b.val + n.val := by decide +kernel
theorem unbyte_upper : ∀ (a b : Fin 2) (n : Fin 64),
    ((128 * a.val + 64 * b.val + n.val) &&& 0x80) >>> 7 = a.val ∧
    ((128 * a.val + 64 * b.val + n.val) &&& 0x40) >>> 6 = b.val ∧
    (128 * a.val + 64 * b.val + n.val) &&& 0x3f = n.val := by decide +kernel
theorem unbyte_bytes : ∀ a : Fin 64, a.val &&& 0x3f = a.val := by decide
theorem byte_array : ∀ (a : Fin 2) (t : Fin 32), (w32(a.val <<< 7) ||| t.val) = 128 * a.val + t.val := by decide
theorem unbyte_array : ∀ (a : Fin 2) (t : Fin 32),
    (if (128 * a.val + t.val) &&& 0x80 ≠ 0 then 1 else 0) = a.val ∧ (128 * a.val + t.val) &&& 0x1f = t.val := by
  decide

/-! ## Levels of the sub-layers -/

def LevelFits (s : Nat × Nat) : Prop := s = (0, 0) ∨ (s.1 = 1 ∧ s.2 < 256)

theorem flagsOf_lt (l : List (Nat × Nat)) : ∀ bit, l.length ≤ bit + 1 → flagsOf bit l < 2 ^ (bit + 1) := by
  induction l with
  | nil => intro bit _; exact Nat.two_pow_pos _
  | cons s l ih =>
    intro bit h
    simp only [List.length_cons] at h
    have hp : 2 ^ (bit + 1) = 2 * 2 ^ bit := by rw [Nat.pow_succ]; omega
    have hb : flagsOf (bit - 1) l < 2 ^ bit := by
      cases bit with
      | zero =>
        have : l = [] := List.eq_nil_of_length_eq_zero (by omega)
        subst this; simp [flagsOf]
      | succ b => exact ih b (by omega)
    unfold flagsOf
    split <;> omega

theorem flagBits_eq (l : List (Nat × Nat)) : ∀ bit, bit ≤ 7 → l.length ≤ bit + 1 → (∀ s ∈ l, LevelFits s) →
    flagBits bit l = flagsOf bit l := by
  induction l with
  | nil => intro bit _ _ _; rfl
  | cons s l ih =>
    intro bit h7 h hl
    simp only [List.length_cons] at h
    have hb : flagsOf (bit - 1) l < 2 ^ bit := by
      cases bit with
      | zero =>
        have : l = [] := List.eq_nil_of_length_eq_zero (by omega)
        subst this; simp [flagsOf]
      | succ b => exact flagsOf_lt l b (by omega)
    have ih' : flagBits (bit - 1) l = flagsOf (bit - 1) l := by
      cases bit with
      | zero =>
        have : l = [] := List.eq_nil_of_length_eq_zero (by omega)
        subst this; rfl
      | succ b => exact ih b (by omega) (by omega) fun x hx => hl x (by simp [hx])
    have hp : 2 ^ bit ≤ 2 ^ 7 := Nat.pow_le_pow_right (by omega) h7
    unfold flagBits flagsOf
    rw [ih']
    rcases hl s (by simp) with h0 | ⟨h1, _⟩
    · simp [h0]
    · rw [h1, Nat.one_shiftLeft, if_pos (by omega), Nat.mod_eq_of_lt (by omega), ← Nat.one_shiftLeft,
        ← Nat.shiftLeft_add_eq_or_of_lt hb]

theorem parses_subs (l : List (Nat × Nat)) : ∀ (bit hi : Nat), l.length ≤ bit + 1 → (∀ s ∈ l, LevelFits s) →
    Parses (getSubs (hi * 2 ^ (bit + 1) + flagsOf bit l) (2 ^ bit) l.length) (levelBytes l) l := by
  induction l with
  | nil => intro bit hi _ _; exact parses_pure _
  | cons s l ih =>
    intro bit hi h hl
    simp only [List.length_cons] at h ⊢
    have hp : 2 ^ (bit + 1) = 2 * 2 ^ bit := by rw [Nat.pow_succ]; omega
    have hpos := Nat.two_pow_pos bit
    have hb : flagsOf (bit - 1) l < 2 ^ bit := by
      cases bit with
      | zero =>
        have : l = [] := List.eq_nil_of_length_eq_zero (by omega)
        subst this; simp [flagsOf]
      | succ b => exact flagsOf_lt l b (by omega)
    have hrest : ∀ hi', Parses (getSubs (hi' * 2 ^ bit + flagsOf (bit - 1) l) (2 ^ bit >>> 1) l.length) (levelBytes l) l := by
      intro hi'
      cases bit with
      | zero =>
        have : l = [] := List.eq_nil_of_length_eq_zero (by omega)
        subst this; exact parses_pure _
      | succ b =>
        have e : 2 ^ (b + 1) >>> 1 = 2 ^ b := by
          rw [Nat.shiftRight_eq_div_pow, Nat.pow_one, Nat.pow_succ]; omega
        rw [e]
        exact ih b hi' (by omega) fun x hx => hl x (by simp [hx])
    unfold getSubs
    rcases hl s (by simp) with h0 | ⟨h1, h2⟩
    · have ex : hi * 2 ^ (bit + 1) + flagsOf bit (s :: l) = (hi * 2) * 2 ^ bit + flagsOf (bit - 1) l := by
        simp only [flagsOf, h0]
        rw [hp, Nat.mul_assoc]
        simp
      have eb : levelBytes (s :: l) = levelBytes l := by simp [levelBytes, h0]
      rw [ex, eb, if_neg ?_]
      · refine (hrest (hi * 2)).bind_nil ?_
        rw [h0]
        exact parses_pure _
      · rw [and_ne, Nat.add_comm, Nat.add_mul_div_right _ _ hpos, Nat.div_eq_of_lt hb]
        omega
    · have ex : hi * 2 ^ (bit + 1) + flagsOf bit (s :: l) = (hi * 2 + 1) * 2 ^ bit + flagsOf (bit - 1) l := by
        simp only [flagsOf, h1]
        rw [hp, Nat.add_mul, Nat.mul_assoc]
        simp
        omega
      have eb : levelBytes (s :: l) = be 1 s.2 ++ levelBytes l := by simp [levelBytes, h1]
      rw [ex, eb, if_pos ?_]
      · refine (parses_get8' h2).bind ((hrest (hi * 2 + 1)).bind_nil ?_)
        have : s = (1, s.2) := by rw [← h1]
        rw [← this]
        exact parses_pure _
      · rw [and_ne, Nat.add_comm, Nat.add_mul_div_right _ _ hpos, Nat.div_eq_of_lt hb]
        omega

/-! ## The profile, tier and level part -/

theorem layers_fit {c : Vvc} (h : PtlFits c) : ∀ s ∈ layers c, LevelFits s := by
  intro s hs
  exact h.used s (by simpa [layers] using hs)

theorem layers_length {c : Vvc} (h : PtlFits c) : (layers c).length = c.sublayers - 1 := by
  have h1 := h.sublayers; have h2 := h.length
  simp [layers]
  omega

theorem levelBytes_length (l : List (Nat × Nat)) : (levelBytes l).length = (l.filter fun s => s.1 ≠ 0).length := by
  unfold levelBytes
  rw [flatMap_length_const (c := 1) _ fun s _ => be_length 1 s.2, Nat.one_mul]

theorem ptlSize_eq {c : Vvc} (h : PtlFits c) : ptlSize c = (ptlBytes c).length := by
  have h1 := h.bytes; have h2 := h.lower; have h3 := h.subProfiles.1; have h4 := layers_length h
  have e : ((subList c).filter fun s => s.1 ≠ 0).length = (levelBytes (layers c)).length := (levelBytes_length _).symm
  unfold ptlSize ptlBytes
  rw [e, h3]
  by_cases hs : c.sublayers ≥ 2
  · simp only [if_pos hs, List.length_append, be_length]
    omega
  · have e0 : layers c = [] := List.eq_nil_of_length_eq_zero (by omega)
    rw [e0]
    simp only [if_neg hs, List.length_append, be_length, List.length_nil, levelBytes, List.filter_nil, List.flatMap_nil]
    omega

theorem emits_ptl {c : Vvc} (h : PtlFits c) : Emits (putPtl c) (ptlBytes c) := by
  have k1 := word_bits h.ols h.sublayers h.constantRate h.chroma
  have k2 := byte_bitDepth ⟨_, h.depth⟩
  have k3 := byte_profile ⟨_, h.profile⟩ ⟨_, h.tier⟩
  have k4 := byte_upper ⟨_, h.frameOnly⟩ ⟨_, h.multiLayer⟩ ⟨_, h.upper⟩
  have k5 := flagBits_eq (layers c) 7 (by omega) (by have := layers_length h; have := h.sublayers; omega) (layers_fit h)
  simp only at k2 k3 k4
  have hb := h.bytes; have hl := h.lower
  have hok : sublayersOk c = true := by
    have h1 := h.sublayers; have h2 := h.length
    simp only [sublayersOk, decide_eq_true_eq]; omega
  have esub : subList c = layers c := rfl
  unfold putPtl ptlBytes
  rw [k1, k2, k3, k4, esub, k5, hok, if_pos rfl, h.subProfiles.1, h.subProfiles.2]
  have ew : (if ([] : List Nat).length < 0 then W.bad else W.each put32 (([] : List Nat).take 0)) = W.skip := rfl
  rw [ew]
  refine (emits_put16 _).seq ((emits_put8 _).seq ((emits_put8 _).seq ((emits_put8 _).seq ((emits_put8 _).seq
    ((emits_put8 _).seq (Emits.seq ?_ ?_))))))
  · by_cases h1 : c.ptl.bytes > 1
    · rw [if_pos h1, if_neg (by omega), List.take_of_length_le (by omega)]
      exact emits_bytes _
    · rw [if_neg h1]
      have : c.ptl.lower = [] := List.eq_nil_of_length_eq_zero (by omega)
      rw [this]
      exact emits_skip
  · have hlev : Emits (W.each (fun s : Nat × Nat => put8 s.2) ((layers c).filter fun s => s.1 ≠ 0)) (levelBytes (layers c)) :=
      Emits.each _ fun s _ => emits_put8 _
    have htail : Emits (put8 0 ;; W.skip ;; put16 c.width ;; put16 c.height ;; put16 c.frameRate)
        (be 1 0 ++ (be 2 c.width ++ (be 2 c.height ++ be 2 c.frameRate))) := by
      have := (emits_put8 0).seq (emits_skip.seq ((emits_put16 c.width).seq ((emits_put16 c.height).seq
        (emits_put16 c.frameRate))))
      simpa using this
    by_cases hs : c.sublayers ≥ 2
    · rw [if_pos hs, if_pos hs]
      have := emits_skip.seq ((emits_put8 (flagsOf 7 (layers c))).seq (hlev.seq htail))
      simpa only [List.nil_append, List.append_assoc] using this
    · rw [if_neg hs, if_neg hs]
      have e0 : layers c = [] := List.eq_nil_of_length_eq_zero (by have := layers_length h; omega)
      rw [e0] at hlev ⊢
      have := emits_skip.seq (emits_skip.seq (hlev.seq htail))
      simpa only [List.nil_append, List.append_assoc, levelBytes, List.filter_nil, List.flatMap_nil] using this

theorem parses_ptl {c : Vvc} (h : PtlFits c) (d : Vvc) :
    Parses (getPtl d) (ptlBytes c) { d with
      ols := c.ols, sublayers := c.sublayers, constantRate := c.constantRate, chroma := c.chroma, depth := c.depth
      ptl := c.ptl, width := c.width, height := c.height, frameRate := c.frameRate } := by
  have hx : 128 * c.ols + 16 * c.sublayers + 4 * c.constantRate + c.chroma < 65536 := by
    have h1 := h.ols; have h2 := h.sublayers; have h3 := h.constantRate; have h4 := h.chroma; omega
  obtain ⟨w1, w2, w3, w4⟩ := word_fields _ hx
  have k2 := unbyte_bitDepth ⟨_, h.depth⟩
  have k3 := unbyte_profile ⟨_, h.profile⟩ ⟨_, h.tier⟩
  have k4 := unbyte_upper ⟨_, h.frameOnly⟩ ⟨_, h.multiLayer⟩ ⟨_, h.upper⟩
  have k5 := unbyte_bytes ⟨_, h.bytes.2⟩
  simp only at k2 k3 k4 k5
  have v1 : (128 * c.ols + 16 * c.sublayers + 4 * c.constantRate + c.chroma) / 128 = c.ols := by
    have h1 := h.ols; have h2 := h.sublayers; have h3 := h.constantRate; have h4 := h.chroma; omega
  have v2 : (128 * c.ols + 16 * c.sublayers + 4 * c.constantRate + c.chroma) / 16 % 8 = c.sublayers := by
    have h1 := h.ols; have h2 := h.sublayers; have h3 := h.constantRate; have h4 := h.chroma; omega
  have v3 : (128 * c.ols + 16 * c.sublayers + 4 * c.constantRate + c.chroma) / 4 % 4 = c.constantRate := by
    have h1 := h.ols; have h2 := h.sublayers; have h3 := h.constantRate; have h4 := h.chroma; omega
  have v4 : (128 * c.ols + 16 * c.sublayers + 4 * c.constantRate + c.chroma) % 4 = c.chroma := by
    have h1 := h.ols; have h2 := h.sublayers; have h3 := h.constantRate; have h4 := h.chroma; omega
  rw [v1] at w1; rw [v2] at w2; rw [v3] at w3; rw [v4] at w4
  have hd := h.depth; have hp := h.profile; have ht := h.tier; have hf := h.frameOnly; have hm := h.multiLayer
  have hu := h.upper; have hb := h.bytes; have hl := h.lower
  have hlow : Parses (getLower c.ptl.bytes) c.ptl.lower c.ptl.lower := by
    unfold getLower
    by_cases h1 : c.ptl.bytes > 1
    · rw [if_pos h1]; exact parses_getBytes hl
    · rw [if_neg h1]
      have : c.ptl.lower = [] := List.eq_nil_of_length_eq_zero (by omega)
      rw [this]; exact parses_pure _
  have hlev : Parses (getLevels c.sublayers)
      (if c.sublayers ≥ 2 then be 1 (flagsOf 7 (layers c)) ++ levelBytes (layers c) else []) (layers c) := by
    unfold getLevels
    have hlen := layers_length h
    have hs7 := h.sublayers
    by_cases hs : c.sublayers ≥ 2
    · rw [if_pos hs, if_pos hs]
      have hlt := flagsOf_lt (layers c) 7 (by omega)
      have hsub := parses_subs (layers c) 7 0 (by omega) (layers_fit h)
      simp only [Nat.zero_mul, Nat.zero_add] at hsub
      rw [hlen] at hsub
      exact (parses_get8' hlt).bind hsub
    · rw [if_neg hs, if_neg hs]
      have e0 : layers c = [] := List.eq_nil_of_length_eq_zero (by omega)
      rw [e0]; exact parses_pure _
  have hsubs : (layers c).reverse ++ List.replicate (8 - (layers c).length) (0, 0) = c.ptl.subs := by
    rw [layers_length h, ← h.unused]
    simp [layers]
  have hptl : (⟨c.ptl.bytes, c.ptl.profile, c.ptl.tier, c.ptl.level, c.ptl.frameOnly, c.ptl.multiLayer, c.ptl.upper,
      c.ptl.lower, c.ptl.subs, 0, []⟩ : Ptl) = c.ptl := by
    obtain ⟨e1, e2⟩ := h.subProfiles
    cases hc : c.ptl
    simp_all
  unfold getPtl ptlBytes
  refine (parses_get16' hx).bind ((parses_get8' (by omega)).bind ((parses_get8' (by omega)).bind
    ((parses_get8' (by omega)).bind ((parses_get8' h.level).bind ((parses_get8' (by omega)).bind ?_)))))
  rw [k5]
  refine hlow.bind ?_
  rw [w2]
  refine hlev.bind ((parses_get8' (by omega)).bind (Parses.bind (x := []) (parses_pure _) ?_))
  refine (parses_get16' h.sizes.1).bind ((parses_get16' h.sizes.2.1).bind ((parses_get16' h.sizes.2.2).bind_nil ?_))
  rw [w1, w3, w4, k2, k3.1, k3.2, k4.1, k4.2.1, k4.2.2, hsubs, hptl]
  exact parses_pure _

/-! ## The arrays -/

theorem single_iff (t : Nat) : single t = true ↔ t = 12 ∨ t = 13 := by
  simp [single, or_comm]

theorem filled_cons_nil {a : Arr} {as : List Arr} (h : a.nals = []) : filled (a :: as) = filled as := by
  simp [filled, h]

theorem filled_cons {a : Arr} {as : List Arr} (h : a.nals ≠ []) : filled (a :: as) = a :: filled as := by
  simp [filled, h]

theorem emits_arr {a : Arr} (h : ArrFits a) (ht : a.type < 32) (hne : a.nals ≠ []) : Emits (putArr a) (arrBytes a) := by
  have k := byte_array ⟨_, h.complete⟩ ⟨_, ht⟩
  simp only at k
  have hl : a.nals.length ≠ 0 := fun e => hne (List.eq_nil_of_length_eq_zero e)
  unfold putArr arrBytes
  rw [if_neg hl, k]
  refine (emits_put8 _).seq (Emits.seq ?_ (emits_nals _))
  by_cases hs : a.type = 12 ∨ a.type = 13
  · have := h.single hs
    rw [if_pos ((single_iff _).2 hs), if_pos hs, if_pos (by omega)]
    exact emits_skip
  · rw [if_neg (fun e => hs ((single_iff _).1 e)), if_neg hs]
    exact emits_put16 _

theorem emits_arrs (as : List Arr) (h : ∀ a ∈ as, ArrFits a) (ht : ∀ a ∈ as, a.type < 32) :
    Emits (W.each putArr as) ((filled as).flatMap arrBytes) := by
  induction as with
  | nil => exact emits_skip
  | cons a as ih =>
    have hi := ih (fun b hb => h b (by simp [hb])) fun b hb => ht b (by simp [hb])
    by_cases hne : a.nals = []
    · rw [filled_cons_nil hne]
      have e : putArr a = W.skip := by simp [putArr, hne]
      have := emits_skip.seq hi
      simpa only [W.each, e, List.nil_append] using this
    · rw [filled_cons hne, List.flatMap_cons]
      exact (emits_arr (h a (by simp)) (ht a (by simp)) hne).seq hi

theorem arrsSize_eq (as : List Arr) (h : ∀ a ∈ as, ArrFits a) :
    arrsSize as = .ok ((filled as).flatMap arrBytes).length := by
  induction as with
  | nil => rfl
  | cons a as ih =>
    have hi := ih fun b hb => h b (by simp [hb])
    have ha := h a (by simp)
    unfold arrsSize
    rw [hi]
    by_cases hne : a.nals = []
    · rw [filled_cons_nil hne]
      simp [arrSize, hne, bind_ok]
    · have hl : a.nals.length ≠ 0 := fun e => hne (List.eq_nil_of_length_eq_zero e)
      rw [filled_cons hne, List.flatMap_cons, List.length_append]
      unfold arrSize arrBytes
      rw [if_neg hl]
      by_cases hs : a.type = 12 ∨ a.type = 13
      · have := ha.single hs
        rw [if_pos ((single_iff _).2 hs), if_pos hs, if_pos (by omega), bind_ok, bind_ok]
        simp only [List.length_append, be_length, nals_length, List.length_nil]
        congr 1; omega
      · rw [if_neg (fun e => hs ((single_iff _).1 e)), if_neg hs, bind_ok, bind_ok]
        simp only [List.length_append, be_length, nals_length]
        congr 1; omega

theorem findIdx_mid (D R : List Nat) (t : Nat) (h : (D ++ t :: R).Nodup) :
    (D ++ t :: R).findIdx? (fun x => x == t) = some D.length := by
  induction D with
  | nil => simp [List.findIdx?_cons]
  | cons x D ih =>
    simp only [List.cons_append, List.nodup_cons] at h
    have hx : x ≠ t := by rintro rfl; exact h.1 (by simp)
    rw [List.cons_append, List.findIdx?_cons, ih h.2]
    simp [hx]

theorem parses_arr {a x : Arr} (h : ArrFits a) (ht : a.type < 32) (hne : a.nals ≠ []) (done rest : List Arr)
    (hi : lut.findIdx? (fun t => t == a.type) = some done.length) :
    Parses (getArr (done ++ x :: rest)) (arrBytes a) (done ++ a :: rest) := by
  have u := unbyte_array ⟨_, h.complete⟩ ⟨_, ht⟩
  simp only at u
  have h1 := h.complete
  unfold getArr arrBytes
  refine (parses_get8' (by omega)).bind ?_
  rw [u.1, u.2, hi]
  simp only
  refine Parses.bind (a := a.nals.length) ?_ (Parses.bind_nil (parses_nals h.sets rfl) ?_)
  · unfold getCount
    by_cases hs : a.type = 12 ∨ a.type = 13
    · have hl : a.nals.length ≠ 0 := fun e => hne (List.eq_nil_of_length_eq_zero e)
      have := h.single hs
      rw [if_pos ((single_iff _).2 hs), if_pos hs, show a.nals.length = 1 by omega]
      exact parses_pure _
    · rw [if_neg (fun e => hs ((single_iff _).1 e)), if_neg hs]
      exact parses_get16' h.count
  · have : (done ++ x :: rest).set done.length a = done ++ a :: rest := by simp
    rw [this]
    exact parses_pure _

theorem parses_arrs (todo : List Arr) : ∀ done : List Arr,
    (∀ a ∈ todo, ArrFits a) → done.map Arr.type ++ todo.map Arr.type = lut →
    Parses (getArrs (filled todo).length (done ++ todo.map fun a => ⟨1, a.type, []⟩))
      ((filled todo).flatMap arrBytes) (done ++ todo) := by
  induction todo with
  | nil =>
    intro done _ _
    simp only [filled, List.filter_nil, List.length_nil, List.map_nil, List.append_nil, List.flatMap_nil]
    exact parses_pure _
  | cons a todo ih =>
    intro done h hl
    have hi := ih (done ++ [a]) (fun b hb => h b (by simp [hb])) (by simpa using hl)
    simp only [List.append_assoc, List.singleton_append] at hi
    have ha := h a (by simp)
    by_cases hne : a.nals = []
    · rw [filled_cons_nil hne]
      have e : (⟨1, a.type, []⟩ : Arr) = a := by
        have := ha.empty hne
        cases a
        simp_all
      rw [List.map_cons, e]
      exact hi
    · rw [filled_cons hne, List.flatMap_cons, List.length_cons, List.map_cons]
      unfold getArrs
      have hnd : lut.Nodup := by decide
      have hf : lut.findIdx? (fun t => t == a.type) = some done.length := by
        have := findIdx_mid (done.map Arr.type) (todo.map Arr.type) a.type (by
          rw [List.map_cons] at hl; rw [hl]; exact hnd)
        rw [List.map_cons] at hl
        rwa [hl, List.length_map] at this
      have ht : a.type < 32 := by
        have hm : a.type ∈ lut := by rw [← hl]; simp
        have : ∀ t ∈ lut, t < 32 := by decide
        exact this _ hm
      exact (parses_arr ha ht hne done _ hf).bind hi

/-! ## The whole box -/

theorem noArrays_eq {c : Vvc} (h : Fits c) : (c.arrays.map fun a => (⟨1, a.type, []⟩ : Arr)) = noArrays := by
  have e : lut = c.arrays.map Arr.type := h.types.symm
  unfold noArrays
  rw [e, List.map_map]
  rfl

theorem types_lt {c : Vvc} (h : Fits c) : ∀ a ∈ c.arrays, a.type < 32 := by
  intro a ha
  have hm : a.type ∈ [15, 16, 14, 12, 13, 17, 23] := by
    rw [← h.types]; exact List.mem_map_of_mem ha
  have : ∀ t ∈ [15, 16, 14, 12, 13, 17, 23], t < 32 := by decide
  exact this _ hm

theorem filled_le {c : Vvc} (h : Fits c) : (filled c.arrays).length ≤ 7 := by
  have h1 := List.length_filter_le (fun a : Arr => decide (a.nals ≠ [])) c.arrays
  have h2 := congrArg List.length h.types
  simp only [List.length_map, List.length_cons, List.length_nil] at h2
  unfold filled
  omega

theorem calcSize_eq {c : Vvc} (h : Fits c) : calcSize c = .ok (layout c).length := by
  have hsz := h.size
  have harr : (if c.count ≠ 0 then arrsSize c.arrays else .ok 0) = .ok ((filled c.arrays).flatMap arrBytes).length := by
    by_cases h0 : c.count = 0
    · rw [if_neg (by simp [h0])]
      have : filled c.arrays = [] := List.eq_nil_of_length_eq_zero (by rw [← h.count, h0])
      rw [this]; rfl
    · rw [if_pos h0, arrsSize_eq _ h.arrays]
  unfold calcSize
  rw [harr, bind_ok]
  have hp := h.present
  by_cases h1 : c.ptlPresent = 1
  · have hf := h.ptl h1
    have hok : sublayersOk c = true := by
      have h1 := hf.sublayers; have h2 := hf.length
      simp only [sublayersOk, decide_eq_true_eq]; omega
    rw [if_neg (by simp [hok]), if_pos (by omega), ptlSize_eq hf]
    simp only [layout, fullBox, box, record, h1, if_true, List.length_append, be_length] at hsz ⊢
    congr 1; omega
  · rw [if_neg (by omega), if_neg (by omega)]
    simp only [layout, fullBox, box, record, h1, if_false, List.length_append, be_length, List.length_nil] at hsz ⊢
    congr 1; omega

/-- A configuration in range survives being written and parsed. -/
theorem c55_vvc_round_trip_partial (c : Vvc) (h : Fits c) :
    BoxRoundTrip (layout c).length (serialize (layout c).length c) parse c (layout c) := by
  have k1 := byte_first ⟨_, h.lengthSize1⟩ ⟨_, h.present⟩
  have u1 := unbyte_first ⟨_, h.lengthSize1⟩ ⟨_, h.present⟩
  simp only at k1 u1
  have hp := h.present; have hl := h.lengthSize1; have hfl := filled_le h
  refine BoxRoundTrip.ofFull (type := type) ?_ ?_
    (by simp only [layout, fullBox, box, List.length_append, be_length]; omega) h.size (by decide) (by decide)
  · apply Emits.full
    rw [k1, h.count]
    refine (emits_put8 _).seq (Emits.seq ?_ ((emits_put8 _).seq (emits_arrs _ h.arrays (types_lt h))))
    by_cases h1 : c.ptlPresent = 1
    · rw [if_pos (by omega), if_pos h1]; exact emits_ptl (h.ptl h1)
    · rw [if_neg (by omega), if_neg h1]; exact emits_skip
  · apply Parses.at
    unfold parse
    refine (parses_versionFlags h.version h.flags).bind ((parses_get8' (by omega)).bind ?_)
    rw [u1.1, u1.2]
    have harr := parses_arrs c.arrays [] h.arrays h.types
    simp only [List.nil_append] at harr
    rw [noArrays_eq h] at harr
    by_cases h1 : c.ptlPresent = 1
    · rw [if_pos h1]
      simp only []
      rw [if_pos (by omega)]
      refine (parses_ptl (h.ptl h1) _).bind ((parses_get8' (by omega)).bind (harr.bind_nil ?_))
      rw [← h.count]
      exact parses_pure _
    · have h0 : c.ptlPresent = 0 := by omega
      rw [if_neg h1]
      simp only []
      rw [if_neg (by omega)]
      refine Parses.bind (parses_pure _) ((parses_get8' (by omega)).bind (harr.bind_nil ?_))
      rw [← h.count]
      obtain ⟨e1, e2, e3, e4, e5, e6, e7, e8, e9⟩ := h.noPtl h0
      have e : (⟨c.version, c.flags, c.lengthSize1, c.ptlPresent, 0, 0, 0, 0, 0, Vvc.noPtl, 0, 0, 0, c.count,
          c.arrays⟩ : Vvc) = c := by
        cases c; simp_all
      simp only [create, e]
      exact parses_pure _

/-! ## Sets added one by one -/

theorem write_eq {c : Vvc} (h : Fits c) : write c = .ok (layout c) := by
  unfold write
  rw [calcSize_eq h, bind_ok]
  exact (c55_vvc_round_trip_partial c h).write

theorem read_eq {c : Vvc} (h : Fits c) : read (layout c) = .ok c := by
  obtain ⟨hd, e⟩ := (c55_vvc_round_trip_partial c h).read []
  rw [List.append_nil] at e
  unfold read
  rw [e]

/-- An array with the sets of its kind after those it has. -/
def grow (adds : List (Nat × Bytes)) (a : Arr) : Arr := ⟨a.complete, a.type, a.nals ++ setsOf adds a.type⟩

/-- A configuration with the sets `adds` after those it has. -/
def plus (c : Vvc) (adds : List (Nat × Bytes)) : Vvc :=
  { c with count := (filled (c.arrays.map (grow adds))).length, arrays := c.arrays.map (grow adds) }

theorem grow_more (adds : List (Nat × Bytes)) (k : Nat) (b : Bytes) (a : Arr) :
    grow (adds ++ [(k, b)]) a = if k = a.type then { grow adds a with nals := (grow adds a).nals ++ [b] } else grow adds a := by
  by_cases h : k = a.type <;> simp [grow, setsOf_append, setsOf_one, h]

theorem split_at (as : List Arr) (k : Nat) (hn : (as.map Arr.type).Nodup) (hk : k ∈ as.map Arr.type) :
    ∃ D a R, as = D ++ a :: R ∧ a.type = k ∧ (∀ d ∈ D, d.type ≠ k) ∧ ∀ r ∈ R, r.type ≠ k := by
  induction as with
  | nil => simp at hk
  | cons x as ih =>
    simp only [List.map_cons, List.nodup_cons] at hn
    by_cases hx : x.type = k
    · refine ⟨[], x, as, rfl, hx, by simp, ?_⟩
      intro r hr e
      exact hn.1 (by rw [hx, ← e]; exact List.mem_map_of_mem hr)
    · simp only [List.map_cons, List.mem_cons] at hk
      obtain ⟨D, a, R, e, h1, h2, h3⟩ := ih hn.2 (hk.resolve_left fun e => hx e.symm)
      refine ⟨x :: D, a, R, by rw [e]; rfl, h1, ?_, h3⟩
      intro d hd
      rcases List.mem_cons.1 hd with rfl | hd
      · exact hx
      · exact h2 d hd

theorem map_grow_others (adds : List (Nat × Bytes)) (k : Nat) (b : Bytes) (l : List Arr) (h : ∀ d ∈ l, d.type ≠ k) :
    l.map (grow (adds ++ [(k, b)])) = l.map (grow adds) := by
  apply List.map_congr_left
  intro d hd
  rw [grow_more, if_neg (fun e => h d hd e.symm)]

theorem findIdx_arr (D R : List Arr) (a : Arr) (k : Nat) (ha : a.type = k) (h : ∀ d ∈ D, d.type ≠ k) :
    (D ++ a :: R).findIdx? (fun x => x.type == k) = some D.length := by
  induction D with
  | nil => simp [List.findIdx?_cons, ha]
  | cons x D ih =>
    rw [List.cons_append, List.findIdx?_cons, ih fun d hd => h d (by simp [hd])]
    have := h x (by simp)
    simp [this]

theorem find_arr (D R : List Arr) (a : Arr) (k : Nat) (ha : a.type = k) (h : ∀ d ∈ D, d.type ≠ k) :
    (D ++ a :: R).find? (fun x => x.type == k) = some a := by
  induction D with
  | nil => simp [ha]
  | cons x D ih =>
    have := h x (by simp)
    rw [List.cons_append, List.find?_cons_of_neg (by simpa using this), ih fun d hd => h d (by simp [hd])]

theorem filled_append (x y : List Arr) : filled (x ++ y) = filled x ++ filled y := by simp [filled]

theorem filled_length_le (x : List Arr) : (filled x).length ≤ x.length := List.length_filter_le _ _

theorem plus_add (c : Vvc) (adds : List (Nat × Bytes)) (k : Nat) (b : Bytes)
    (ht : c.arrays.map Arr.type = [15, 16, 14, 12, 13, 17, 23]) (hk : k ∈ [15, 16, 14, 12, 13, 17, 23]) :
    add (plus c adds) k b = .ok (plus c (adds ++ [(k, b)])) := by
  obtain ⟨D, a, R, e, h1, h2, h3⟩ := split_at c.arrays k (by rw [ht]; decide) (by rw [ht]; exact hk)
  have hlen : D.length + R.length + 1 = 7 := by
    have := congrArg List.length ht
    rw [e] at this
    simp at this
    omega
  have hD : ∀ d ∈ D.map (grow adds), d.type ≠ k := by
    intro d hd
    obtain ⟨x, hx, rfl⟩ := List.mem_map.1 hd
    exact h2 x hx
  have ga : (grow adds a).type = k := h1
  have e1 : c.arrays.map (grow adds) = D.map (grow adds) ++ grow adds a :: R.map (grow adds) := by rw [e]; simp
  have e2 : c.arrays.map (grow (adds ++ [(k, b)])) =
      D.map (grow adds) ++ { grow adds a with nals := (grow adds a).nals ++ [b] } :: R.map (grow adds) := by
    rw [e, List.map_append, List.map_cons, map_grow_others _ _ _ _ h2, map_grow_others _ _ _ _ h3, grow_more,
      if_pos h1.symm]
  have hcount : (if (grow adds a).nals.length = 0 then
      w32((filled (D.map (grow adds) ++ grow adds a :: R.map (grow adds))).length + 1)
      else (filled (D.map (grow adds) ++ grow adds a :: R.map (grow adds))).length) =
      (filled (D.map (grow adds) ++ { grow adds a with nals := (grow adds a).nals ++ [b] } :: R.map (grow adds))).length := by
    have l1 := filled_length_le (D.map (grow adds))
    have l2 := filled_length_le (R.map (grow adds))
    simp only [List.length_map] at l1 l2
    rw [filled_append, filled_append, filled_cons (a := { grow adds a with nals := (grow adds a).nals ++ [b] }) (by simp)]
    by_cases h0 : (grow adds a).nals = []
    · rw [filled_cons_nil h0]
      simp only [h0, List.length_nil, if_true, List.length_append, List.length_cons]
      omega
    · rw [filled_cons h0, if_neg (fun e => h0 (List.eq_nil_of_length_eq_zero e))]
      simp only [List.length_append, List.length_cons]
  unfold add plus
  simp only [e1, e2, findIdx_arr _ _ _ _ ga hD]
  have hget : (D.map (grow adds) ++ grow adds a :: R.map (grow adds))[(D.map (grow adds)).length]? = some (grow adds a) := by
    simp
  simp only [hget]
  rw [hcount]
  simp

/-- Length of an array in the box. -/
def weight (a : Arr) : Nat := if a.nals = [] then 0 else (arrBytes a).length

theorem flat_weight (as : List Arr) : ((filled as).flatMap arrBytes).length = (as.map weight).sum := by
  induction as with
  | nil => rfl
  | cons a as ih =>
    by_cases h : a.nals = []
    · rw [filled_cons_nil h, ih]; simp [weight, h]
    · rw [filled_cons h, List.flatMap_cons, List.length_append, ih]; simp [weight, h]

theorem weight_le (a : Arr) : weight a ≤ 3 + nalsSize a.nals := by
  unfold weight
  split
  · omega
  · simp only [arrBytes, List.length_append, be_length, nals_length]
    split <;> simp only [List.length_nil, be_length] <;> omega

/-- Bytes that the sets take: two for the size of each one, and its contents. -/
def total (adds : List (Nat × Bytes)) : Nat := (adds.map fun a => 2 + a.2.length).sum

theorem types_total (T : List Nat) (hT : T.Nodup) (adds : List (Nat × Bytes)) :
    (T.map fun t => nalsSize (setsOf adds t)).sum ≤ total adds := by
  induction adds with
  | nil =>
    induction T with
    | nil => simp [total]
    | cons t T ih => simpa [setsOf, nalsSize, total] using ih (List.nodup_cons.1 hT).2
  | cons x adds ih =>
    have key : ∀ T : List Nat, T.Nodup → (T.map fun t => nalsSize (setsOf (x :: adds) t)).sum ≤
        (T.map fun t => nalsSize (setsOf adds t)).sum + if x.1 ∈ T then 2 + x.2.length else 0 := by
      intro T
      induction T with
      | nil => simp
      | cons t T iht =>
        intro hT
        have hT' := List.nodup_cons.1 hT
        have hi := iht hT'.2
        have e : setsOf (x :: adds) t = setsOf [x] t ++ setsOf adds t := setsOf_append [x] adds t
        have e1 : setsOf [x] t = if x.1 = t then [x.2] else [] := setsOf_one t x.1 x.2
        simp only [List.map_cons, List.sum_cons, e, e1]
        by_cases hx : x.1 = t
        · have hn : x.1 ∉ T := by rw [hx]; exact hT'.1
          rw [if_neg hn] at hi
          rw [if_pos hx, if_pos (show x.1 ∈ t :: T by rw [hx]; simp)]
          have : nalsSize ([x.2] ++ setsOf adds t) = 2 + x.2.length + nalsSize (setsOf adds t) := rfl
          omega
        · rw [if_neg hx]
          have e2 : (x.1 ∈ t :: T) ↔ x.1 ∈ T := by simp [hx]
          simp only [e2, List.nil_append]
          omega
    have h1 := key T hT
    have h2 : total (x :: adds) = 2 + x.2.length + total adds := by simp [total]
    split at h1 <;> omega

theorem setsOf_sum_le (as : List Arr) (adds : List (Nat × Bytes)) (h0 : ∀ a ∈ as, a.nals = []) :
    ((as.map (grow adds)).map weight).sum ≤ 3 * as.length + ((as.map Arr.type).map fun t => nalsSize (setsOf adds t)).sum := by
  induction as with
  | nil => simp
  | cons a as ih =>
    have h1 := ih fun b hb => h0 b (by simp [hb])
    have h2 := weight_le (grow adds a)
    have h3 : (grow adds a).nals = setsOf adds a.type := by simp [grow, h0 a (by simp)]
    rw [h3] at h2
    simp only [List.map_cons, List.sum_cons, List.length_cons]
    omega

theorem ptlBytes_length_le {c : Vvc} (h : PtlFits c) : (ptlBytes c).length ≤ 100 := by
  have h1 := h.sublayers; have h2 := h.bytes; have h3 := h.lower
  have h4 : (levelBytes (layers c)).length ≤ 8 := by
    rw [levelBytes_length]
    have := List.length_filter_le (fun s : Nat × Nat => decide (s.1 ≠ 0)) (layers c)
    have := layers_length h
    omega
  simp only [ptlBytes, List.length_append, be_length, h3]
  split <;> simp only [List.length_append, be_length, List.length_nil] <;> omega

theorem plus_fits (c : Vvc) (hc : Fits c) (h0 : ∀ a ∈ c.arrays, a.nals = []) (adds : List (Nat × Bytes))
    (hone : (setsOf adds 12).length ≤ 1 ∧ (setsOf adds 13).length ≤ 1)
    (hmany : ∀ k, (setsOf adds k).length < 65536) (hs : ∀ a ∈ adds, a.2.length < 65536)
    (ht : total adds < 4294967000) : Fits (plus c adds) := by
  have hlen : c.arrays.length = 7 := by simpa using congrArg List.length hc.types
  refine ⟨hc.version, hc.flags, hc.lengthSize1, hc.present, ?_, ?_, ?_, ?_, rfl, ?_⟩
  · intro h1
    obtain ⟨q1, q2, q3, q4, q5, q6, q7, q8, q9, q10, q11, q12, q13, q14, q15, q16, q17, q18⟩ := hc.ptl h1
    exact ⟨q1, q2, q3, q4, q5, q6, q7, q8, q9, q10, q11, q12, q13, q14, q15, q16, q17, q18⟩
  · exact hc.noPtl
  · simpa [plus, grow, Function.comp_def] using hc.types
  · intro a ha
    obtain ⟨x, hx, rfl⟩ := List.mem_map.1 ha
    have hx0 := h0 x hx
    refine ⟨(hc.arrays x hx).complete, fun _ => (hc.arrays x hx).empty hx0, ?_, ?_, ?_⟩
    · simpa [grow, hx0] using hmany x.type
    · intro h
      change x.type = 12 ∨ x.type = 13 at h
      rcases h with h | h
      · simpa [grow, hx0, h] using hone.1
      · simpa [grow, hx0, h] using hone.2
    · intro b hb
      simp only [grow, hx0, List.nil_append, setsOf, List.mem_map, List.mem_filter] at hb
      obtain ⟨a, ⟨ha, _⟩, rfl⟩ := hb
      exact hs a ha
  · have h1 := setsOf_sum_le c.arrays adds h0
    rw [hc.types] at h1
    have h2 := types_total [15, 16, 14, 12, 13, 17, 23] (by decide) adds
    have h3 : (if (plus c adds).ptlPresent = 1 then ptlBytes (plus c adds) else []).length ≤ 100 := by
      by_cases hp : c.ptlPresent = 1
      · rw [if_pos (show (plus c adds).ptlPresent = 1 from hp)]; exact ptlBytes_length_le (c := c) (hc.ptl hp)
      · rw [if_neg (show ¬ (plus c adds).ptlPresent = 1 from hp)]; simp
    simp only [layout, fullBox, box, record, List.length_append, be_length, flat_weight]
    change 4 + 4 + (1 + 3 + (1 + (_ + (1 + ((c.arrays.map (grow adds)).map weight).sum)))) < _
    omega

theorem setsOf_prefix_le (a b : List (Nat × Bytes)) (k : Nat) : (setsOf a k).length ≤ (setsOf (a ++ b) k).length := by
  rw [setsOf_append, List.length_append]; omega

theorem total_prefix_le (a b : List (Nat × Bytes)) : total a ≤ total (a ++ b) := by
  simp [total]

/-- **VVC.** A configuration without sets is written; parameter sets are added one by one to the
stored box, which is parsed and written again each time. As long as there is at most one set of
operating point and one of decoding capability information, and the numbers and sizes fit the fields,
each set is returned by its type and number. The configuration has at least one byte of constraint
flags and no sub-profiles (`PtlFits`). -/
theorem c55_vvc_sets_partial (c : Vvc) (hc : Fits c) (h0 : ∀ a ∈ c.arrays, a.nals = [])
    (adds : List (Nat × Bytes)) (hk : ∀ a ∈ adds, a.1 ∈ [12, 13, 14, 15, 16, 17, 23])
    (hone : (setsOf adds 12).length ≤ 1 ∧ (setsOf adds 13).length ≤ 1)
    (hmany : ∀ k, (setsOf adds k).length < 65536) (hs : ∀ a ∈ adds, a.2.length < 65536)
    (ht : total adds < 4294967000) :
    ∃ s0 s : Bytes, write c = .ok s0 ∧ runAll addStored s0 adds = .ok s ∧
      ∀ kind index, kind ∈ [12, 13, 14, 15, 16, 17, 23] →
        getStored s kind index = answer (setsOf adds kind) index := by
  have hfit : ∀ d l, d ++ l = adds → Fits (plus c d) := by
    intro d l e
    refine plus_fits c hc h0 d ?_ ?_ ?_ ?_
    · have h1 := setsOf_prefix_le d l 12
      have h2 := setsOf_prefix_le d l 13
      rw [e] at h1 h2
      omega
    · intro k
      have h1 := setsOf_prefix_le d l k
      have := hmany k
      rw [e] at h1
      omega
    · intro a ha
      exact hs a (by rw [← e]; simp [ha])
    · have := total_prefix_le d l
      rw [e] at this
      omega
  have e0 : plus c [] = c := by
    have : c.arrays.map (grow []) = c.arrays := by
      have e : grow [] = id := by funext a; simp [grow, setsOf]
      rw [e, List.map_id]
    unfold plus
    rw [this, ← hc.count]
  have key : ∀ l d : List (Nat × Bytes), d ++ l = adds →
      runAll addStored (layout (plus c d)) l = .ok (layout (plus c adds)) := by
    intro l
    induction l with
    | nil => intro d e; rw [List.append_nil] at e; rw [e]; rfl
    | cons a l ih =>
      intro d e
      have e' : (d ++ [a]) ++ l = adds := by rw [← e]; simp
      have hka : a.1 ∈ [15, 16, 14, 12, 13, 17, 23] := by
        have := hk a (by rw [← e]; simp)
        simp only [List.mem_cons, List.not_mem_nil, or_false] at this ⊢
        omega
      have hstep : addStored (layout (plus c d)) a = .ok (layout (plus c (d ++ [a]))) := by
        unfold addStored
        rw [read_eq (hfit d _ e), bind_ok, plus_add c d a.1 a.2 hc.types hka, bind_ok]
        exact write_eq (hfit _ _ e')
      simp only [runAll, hstep, Res.bind]
      exact ih _ e'
  refine ⟨layout c, layout (plus c adds), write_eq hc, ?_, ?_⟩
  · have := key adds [] rfl
    rwa [e0] at this
  · intro kind index hkind
    have hkk : kind ∈ [15, 16, 14, 12, 13, 17, 23] := by
      simp only [List.mem_cons, List.not_mem_nil, or_false] at hkind ⊢
      omega
    obtain ⟨D, a, R, e, h1, h2, h3⟩ := split_at c.arrays kind (by rw [hc.types]; decide) (by rw [hc.types]; exact hkk)
    unfold getStored
    rw [read_eq (hfit adds [] (by simp)), bind_ok]
    have hD : ∀ d ∈ D.map (grow adds), d.type ≠ kind := by
      intro d hd
      obtain ⟨x, hx, rfl⟩ := List.mem_map.1 hd
      exact h2 x hx
    have hf : (plus c adds).arrays.find? (fun x => x.type == kind) = some (grow adds a) := by
      have : (plus c adds).arrays = D.map (grow adds) ++ grow adds a :: R.map (grow adds) := by
        simp [plus, e]
      rw [this]
      exact find_arr _ _ _ _ h1 hD
    unfold get
    rw [hf]
    simp only
    have hnals : (grow adds a).nals = setsOf adds kind := by
      simp [grow, h0 a (by rw [e]; simp), h1]
    rw [hnals]
    exact nth_eq (by have := hmany kind; omega) index

/-- A configuration with three sub-layers, of which one has a level, and two constraint bytes. -/
def sample : Vvc :=
  ⟨0, 0, 3, 1, 5, 3, 1, 1, 2, ⟨2, 1, 0, 80, 1, 0, 7, [9], [(0, 0), (1, 64), (0, 0), (0, 0), (0, 0), (0, 0), (0, 0), (0, 0)], 0, []⟩,
    1920, 1080, 50, 0, noArrays⟩

theorem sample_fits : Fits sample := by
  refine ⟨by decide, by decide, by decide, by decide, fun _ => ?_, fun h => absurd h (by decide), by decide, ?_, by decide, by decide⟩
  · constructor <;> decide
  · intro a ha
    have : a.complete = 1 ∧ a.nals = [] := by
      have h : ∀ a ∈ noArrays, a.complete = 1 ∧ a.nals = [] := by decide
      exact h a ha
    obtain ⟨h1, h2⟩ := this
    constructor <;> simp [h1, h2]

/-- The conditions hold for a decoding capability set, a sequence parameter set and two picture
parameter sets; the second one of those is returned. -/
example : ∃ h, runAll addStored (layout sample) [(13, [7]), (15, [0x79, 1]), (16, [0x81]), (16, [0x81, 2])] = .ok h ∧
    getStored h 16 2 = .ok [0x81, 2] ∧ getStored h 13 1 = .ok [7] ∧ getStored h 16 3 = .err .badParam ∧
    getStored h 14 1 = .err .badParam :=
  ⟨layout (plus sample [(13, [7]), (15, [0x79, 1]), (16, [0x81]), (16, [0x81, 2])]),
    by decide +kernel, by decide +kernel, by decide +kernel, by decide +kernel, by decide +kernel⟩

example : Fits (plus sample [(13, [7]), (15, [0x79, 1]), (16, [0x81]), (16, [0x81, 2])]) :=
  plus_fits sample sample_fits (by decide) _ (by decide) (fun k => by
    have : (setsOf [(13, [7]), (15, [0x79, 1]), (16, [0x81]), (16, [0x81, 2])] k).length ≤ 4 := by
      simp only [setsOf, List.length_map]
      exact List.length_filter_le _ _
    omega) (by decide) (by decide)

/-! ## Where it goes wrong -/

/-- A second set of operating point information (12) or decoding capability information (13) is
accepted and then runs into an assertion when the box is written. -/
theorem c55_not_vvc_second (k : Nat) (hk : k = 12 ∨ k = 13) (x y : Bytes) (hx : x.length < 65536) :
    ∃ h, addStored (layout create) (k, x) = .ok h ∧ addStored h (k, y) = .ub := by
  have f0 : Fits create := by
    refine ⟨by decide, by decide, by decide, by decide, fun h => absurd h (by decide), fun _ => ?_, by decide, ?_, by decide, by decide⟩
    · exact ⟨rfl, rfl, rfl, rfl, rfl, rfl, rfl, rfl, rfl⟩
    · intro a ha
      have h : ∀ a ∈ noArrays, a.complete = 1 ∧ a.nals = [] := by decide
      obtain ⟨h1, h2⟩ := h a ha
      constructor <;> simp [h1, h2]
  have hone : ∀ j, (setsOf [(k, x)] j).length ≤ 1 := by
    intro j; rw [setsOf_one]; split <;> simp
  have f1 : Fits (plus create [(k, x)]) := by
    refine plus_fits create f0 (by decide) _ ⟨hone _, hone _⟩ (fun j => by have := hone j; omega) ?_ ?_
    · simpa using hx
    · simp only [total, List.map_cons, List.map_nil, List.sum_cons, List.sum_nil]; omega
  have hkk : k ∈ [15, 16, 14, 12, 13, 17, 23] := by simp; omega
  have e0 : plus create [] = create := by decide
  refine ⟨layout (plus create [(k, x)]), ?_, ?_⟩
  · unfold addStored
    rw [read_eq f0, bind_ok]
    have := plus_add create [] k x f0.types hkk
    rw [e0] at this
    rw [this, bind_ok]
    exact write_eq f1
  · unfold addStored
    rw [read_eq f1, bind_ok, plus_add create _ k y f0.types hkk, bind_ok]
    rcases hk with rfl | rfl <;> rfl

/-- A box with a sub-profile: the parser stores it through a null pointer. -/
theorem c55_not_vvc_sub_profile :
    read (fullBox type 0 0 (be 1 255 ++ be 2 (16 * 1) ++ be 1 31 ++ [1, 0, 0, 0] ++ be 1 1 ++ be 4 7 ++
      be 2 0 ++ be 2 0 ++ be 2 0 ++ be 1 0)) = .ub := by decide +kernel

/-- The same box without the sub-profile is parsed. -/
example : ∃ c, (read (fullBox type 0 0 (be 1 255 ++ be 2 (16 * 1) ++ be 1 31 ++ [1, 0, 0, 0] ++ be 1 0 ++
      be 2 0 ++ be 2 0 ++ be 2 0 ++ be 1 0))) = .ok c := ⟨_, rfl⟩

/-- A configuration with no byte of constraint flags cannot be written: its size is computed for one
byte less than the serializer writes, because the byte with the two flags is written in any case. -/
theorem c55_not_vvc_no_constraints : write { create with ptlPresent := 1, sublayers := 1 } = .err .ioErr := by
  decide +kernel

/-- An array that is present but empty is counted and not written: a box with it is parsed, written
without error, and the result cannot be parsed. -/
theorem c55_not_vvc_empty_array :
    ∃ c h, read (fullBox type 0 0 (be 1 248 ++ be 1 1 ++ be 1 (128 + 15) ++ be 2 0)) = .ok c ∧
      write c = .ok h ∧ read h = .err .ioErr :=
  ⟨{ create with count := 1 }, fullBox type 0 0 (be 1 248 ++ be 1 1), by decide +kernel, by decide +kernel, by decide +kernel⟩

/-- An array of a type that the table does not have (here 24, a suffix SEI unit) runs into an
assertion. -/
theorem c55_not_vvc_other_type :
    read (fullBox type 0 0 (be 1 248 ++ be 1 1 ++ be 1 (128 + 24) ++ be 2 1 ++ nalBytes [1])) = .ub := by
  decide +kernel

end Verif.Config.Vvc

namespace Verif.Config.Vvn

/-- The box with the length of the NAL unit sizes alone. -/
theorem c55_vvc_length_size (version flags n : Nat) (hv : version < 256) (hf : flags < 2 ^ 24) (hn : n < 4) :
    BoxRoundTrip 13 (serialize version flags n) parse (version, flags, n)
      (fullBox (fcc 'v' 'v' 'n' 'C') version flags (be 1 n)) := by
  refine BoxRoundTrip.ofFull (type := type) ?_ ?_ (by simp) (by decide) (by decide) (by decide)
  · exact Emits.full (emits_put8 _)
  · apply Parses.at
    unfold parse
    refine (parses_versionFlags hv hf).bind ((parses_get8' (by omega)).bind_nil ?_)
    have e : n &&& 3 = n := by
      have := Nat.and_two_pow_sub_one_eq_mod n 2
      rw [show 2 ^ 2 - 1 = 3 from rfl] at this
      omega
    rw [e]
    exact parses_pure _

example : runW 13 (serialize 0 0 3) = .ok [0, 0, 0, 13, 118, 118, 110, 67, 0, 0, 0, 0, 3] := by decide

end Verif.Config.Vvn
