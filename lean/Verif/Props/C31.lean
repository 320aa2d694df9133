import Verif.Props.C44

/-!
# C31: media language codes are returned as set
-/

namespace Verif.Headers

/-- The packed form of three characters (ISO/IEC 14496-12, 8.4.2): 5 bits each, minus 0x60. -/
def packed (a b c : Nat) : Nat := (a - 0x60) * 1024 + (b - 0x60) * 32 + (c - 0x60)

/-- A character that can be packed: 0x60 to 0x7F, which includes `a` to `z`. -/
def Packable (x : Nat) : Prop := 0x60 ≤ x ∧ x ≤ 0x7F

theorem setLanguage_eq {a b c : Nat} (ha : Packable a) (hb : Packable b) (hc : Packable c) :
    setLanguage a b c = .ok (packed a b c) := by
  unfold Packable at ha hb hc
  unfold setLanguage packed
  rw [if_neg (by omega), if_neg (by omega)]
  have h1 : (a - 0x60) <<< 10 ||| (b - 0x60) <<< 5 = ((a - 0x60) * 32 + (b - 0x60)) <<< 5 := by
    rw [show (a - 0x60) <<< 10 = ((a - 0x60) <<< 5) <<< 5 by rw [← Nat.shiftLeft_add]]
    rw [← Nat.shiftLeft_or_distrib, or_shift_eq (by omega)]
  rw [h1, or_shift_eq (by omega)]
  congr 1
  omega

theorem getLanguage_eq (l : Nat) :
    getLanguage l = (l / 1024 % 32 + 0x60, l / 32 % 32 + 0x60, l % 32 + 0x60) := by
  unfold getLanguage
  have h : ∀ x : Nat, x &&& 0x1F = x % 32 := fun x => Nat.and_two_pow_sub_one_eq_mod x 5
  rw [h, h, h, Nat.shiftRight_eq_div_pow, Nat.shiftRight_eq_div_pow]

/-- **C31.** A language set as three characters is stored in the packed form of the standard, and
returned unchanged; also after the media header was written to a file and parsed. -/
theorem c31_set_get {a b c : Nat} (ha : Packable a) (hb : Packable b) (hc : Packable c) :
    ∃ l, setLanguage a b c = .ok l ∧ l = packed a b c ∧ getLanguage l = (a, b, c) ∧
      ∀ h : Mdhd, h.version < 256 → h.flags < 2 ^ 24 → h.language = l → ∀ rest : Bytes,
        ∃ bytes h' hd, runW (mdhdSize h) (mdhdSerialize h) = .ok bytes ∧
          parseAtom mdhdParse (bytes ++ rest) = .ok (h', hd, rest) ∧ getLanguage h'.language = (a, b, c) := by
  have hg : getLanguage (packed a b c) = (a, b, c) := by
    rw [getLanguage_eq]
    unfold Packable at ha hb hc
    unfold packed
    rw [Prod.mk.injEq, Prod.mk.injEq]
    omega
  refine ⟨_, setLanguage_eq ha hb hc, rfl, hg, ?_⟩
  intro h hv hf hl rest
  obtain ⟨h1, _⟩ := c44_media_header h hv hf
  obtain ⟨hd, e⟩ := h1.read rest
  refine ⟨_, _, hd, h1.write, e, ?_⟩
  have : (keptMdhd h).language = packed a b c := by
    show h.language % 2 ^ 16 = _
    rw [hl]
    unfold Packable at ha hb hc
    unfold packed
    omega
  rw [this, hg]

/-- **C31.** Every stored 15-bit code gives three packable characters, which set the same code. -/
theorem c31_get_set {l : Nat} (hl : l < 2 ^ 15) :
    ∃ a b c, getLanguage l = (a, b, c) ∧ Packable a ∧ Packable b ∧ Packable c ∧ setLanguage a b c = .ok l := by
  refine ⟨_, _, _, getLanguage_eq l, ?_⟩
  have h1 : Packable (l / 1024 % 32 + 0x60) := by unfold Packable; omega
  have h2 : Packable (l / 32 % 32 + 0x60) := by unfold Packable; omega
  have h3 : Packable (l % 32 + 0x60) := by unfold Packable; omega
  refine ⟨h1, h2, h3, ?_⟩
  rw [setLanguage_eq h1 h2 h3]
  unfold packed
  congr 1
  omega

/-- All lower-case letters are packable; "und" is the value the library sets by default. -/
example : ∀ x, 'a'.toNat ≤ x → x ≤ 'z'.toNat → Packable x := by
  intro x h1 h2
  have e1 : 'a'.toNat = 97 := rfl
  have e2 : 'z'.toNat = 122 := rfl
  unfold Packable; omega
example : setLanguage 'u'.toNat 'n'.toNat 'd'.toNat = .ok 21956 := by decide

/-- Upper-case letters are not checked: a negative number is shifted left. -/
theorem c31_upper_case_undefined : setLanguage 'E'.toNat 'N'.toNat 'G'.toNat = .ub := by decide

end Verif.Headers
