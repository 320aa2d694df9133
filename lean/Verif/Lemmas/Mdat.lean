import Verif.Model.Mdat

/-!
# What a media data box holds
-/

namespace Verif.Mdat

/-- The box `t` holds the bytes `D`. -/
structure Rep (t : T) (D : Bytes) : Prop where
  size : t.dataSize = D.length
  null : t.data = none → t.alloc = 0
  cells : ∀ c, t.data = some c → c.length = t.alloc ∧ c.take D.length = D
  fits : D.length ≤ t.alloc

theorem rep_create : Rep create [] :=
  ⟨rfl, fun _ => rfl, by intro c h; simp [create] at h, by simp⟩

theorem grow_ok (junk : Nat → UInt8) {t : T} {D : Bytes} (h : Rep t D) {k : Nat} (hk : t.alloc ≤ k) :
    (grow junk t.data k).length = k ∧ (grow junk t.data k).take D.length = D := by
  have hf := h.fits
  cases hd : t.data with
  | none =>
    have h0 := h.null hd
    have : D = [] := List.length_eq_zero_iff.mp (by omega)
    subst this
    simp [grow]
  | some c =>
    obtain ⟨h1, h2⟩ := h.cells c hd
    refine ⟨Mem.realloc_length junk c (by omega), ?_⟩
    show (Mem.realloc junk c k).take D.length = D
    rw [Mem.realloc_take junk c (by omega) (by omega), h2]

theorem put_ok {t : T} {D : Bytes} {c bs : Bytes} (hd : t.data = some c) (hs : t.dataSize = D.length)
    (hc : c.length = t.alloc) (ht : c.take D.length = D) (hf : D.length + bs.length ≤ t.alloc)
    (h64 : D.length + bs.length < 18446744073709551616) :
    ∃ t', put t bs = .ok t' ∧ Rep t' (D ++ bs) ∧ t'.dataOffset = t.dataOffset := by
  obtain ⟨c', e1, e2, e3⟩ := Mem.store_push (vals := bs) ht (by omega)
  unfold put
  rw [hd]
  dsimp only
  rw [hs, e1]
  refine ⟨_, rfl, ⟨?_, ?_, ?_, ?_⟩, rfl⟩
  · show (D.length + bs.length) % 18446744073709551616 = _
    rw [Nat.mod_eq_of_lt h64, List.length_append]
  · intro h; cases h
  · intro c'' h
    injection h with h
    subst h
    exact ⟨by show _ = t.alloc; omega, e3⟩
  · rw [List.length_append]; exact hf

theorem capacity_ge {alloc newSize : Nat} (h : alloc < newSize) :
    alloc ≤ capacity alloc newSize ∧ newSize ≤ capacity alloc newSize := by
  unfold capacity
  split <;> omega

theorem addBytes_ok (junk : Nat → UInt8) {t : T} {D bs : Bytes} (h : Rep t D) (h0 : 0 < bs.length)
    (hl : (D ++ bs).length < 9223372036854775808) :
    ∃ t', (if w64(t.dataSize + bs.length) > t.alloc then
        put { t with
              data := some (grow junk t.data (capacity t.alloc (w64(t.dataSize + bs.length))))
              alloc := capacity t.alloc (w64(t.dataSize + bs.length)) } bs
      else put t bs) = .ok t' ∧ Rep t' (D ++ bs) ∧ t'.dataOffset = t.dataOffset := by
  have hs := h.size
  have hf := h.fits
  rw [List.length_append] at hl
  have e : (t.dataSize + bs.length) % 18446744073709551616 = D.length + bs.length := by omega
  rw [e]
  by_cases hgt : D.length + bs.length > t.alloc
  · rw [if_pos hgt]
    obtain ⟨g1, g2⟩ := capacity_ge hgt
    obtain ⟨k1, k2⟩ := grow_ok junk h g1
    exact put_ok (t := { t with data := _, alloc := _ }) rfl hs k1 k2 g2 (by omega)
  · rw [if_neg hgt]
    cases hd : t.data with
    | none =>
      have := h.null hd
      omega
    | some c =>
      obtain ⟨h1, h2⟩ := h.cells c hd
      exact put_ok hd hs h1 h2 (by omega) (by omega)

theorem addData_ok (junk : Nat → UInt8) {t : T} {D bs : Bytes} (h : Rep t D)
    (hl : (D ++ bs).length < 9223372036854775808) :
    ∃ t', addData junk t bs = .ok t' ∧ Rep t' (D ++ bs) ∧ t'.dataOffset = t.dataOffset := by
  unfold addData
  by_cases h0 : bs.length = 0
  · rw [if_pos h0]
    have : bs = [] := List.length_eq_zero_iff.mp h0
    subst this
    exact ⟨t, rfl, by simpa using h, rfl⟩
  · rw [if_neg h0]
    exact addBytes_ok junk h (by omega) hl

theorem addMdat_ok (junk : Nat → UInt8) {t o : T} {D E : Bytes} (h : Rep t D) (ho : Rep o E)
    (hl : (D ++ E).length < 9223372036854775808) :
    (4294967296 ≤ (D ++ E).length ∧ addMdat junk t o = .err .notImplemented) ∨
      ∃ t', addMdat junk t o = .ok t' ∧ Rep t' (D ++ E) ∧ t'.dataOffset = t.dataOffset := by
  have hs := h.size
  have hs' := ho.size
  have hl' := hl
  rw [List.length_append] at hl' ⊢
  unfold addMdat
  have e : (o.dataSize + t.dataSize) % 18446744073709551616 = D.length + E.length := by omega
  rw [e, Nat.shiftRight_eq_div_pow]
  by_cases hb : (D.length + E.length) / 2 ^ 32 = 0
  · right
    rw [if_neg (by simpa using hb)]
    by_cases h0 : o.dataSize = 0
    · rw [if_pos h0]
      have : E = [] := List.length_eq_zero_iff.mp (by omega)
      subst this
      exact ⟨t, rfl, by simpa using h, rfl⟩
    · rw [if_neg h0]
      have hof := ho.fits
      cases hd : o.data with
      | none => have := ho.null hd; omega
      | some c =>
        obtain ⟨h1, h2⟩ := ho.cells c hd
        dsimp only
        rw [if_neg (by omega), hs', h2]
        exact addBytes_ok junk h (by omega) hl
  · left
    refine ⟨?_, if_pos hb⟩
    have := Nat.div_eq_of_lt (a := D.length + E.length) (b := 2 ^ 32)
    omega

theorem copyData_cases {t : T} {D : Bytes} (h : Rep t D) (hD : D.length < 18446744073709551616)
    {offset n : Nat} (ho : offset < 18446744073709551616) (hn : n < 4294967296) :
    copyData t offset n =
      if D.length < offset + n ∨ t.data = none then
        (if t.data ≠ none ∧ offset + n - 18446744073709551616 ≤ D.length ∧
            18446744073709551616 ≤ offset + n then .err .notImplemented else .err .badParam)
      else if 4294967296 ≤ offset then .err .notImplemented
      else .ok ((D.drop offset).take n) := by
  have hs := h.size
  have hf := h.fits
  unfold copyData
  cases hd : t.data with
  | none => simp
  | some c =>
    obtain ⟨h1, h2⟩ := h.cells c hd
    dsimp only
    rw [Nat.shiftRight_eq_div_pow]
    have hq : offset / 2 ^ 32 ≠ 0 ↔ 4294967296 ≤ offset := by
      have := Nat.div_eq_of_lt (a := offset) (b := 2 ^ 32)
      have := Nat.div_pos (a := offset) (b := 2 ^ 32)
      omega
    simp only [hq]
    by_cases hw : offset + n < 18446744073709551616
    · rw [Nat.mod_eq_of_lt hw, hs]
      by_cases hlt : D.length < offset + n
      · rw [if_pos hlt, if_pos (Or.inl hlt), if_neg (by omega)]
      · rw [if_neg hlt, if_neg (c := List.length D < offset + n ∨ some c = none) (by simp; omega)]
        by_cases ho4 : 4294967296 ≤ offset
        · rw [if_pos ho4, if_pos ho4]
        · rw [if_neg ho4, if_neg ho4, if_pos (by omega)]
          congr 1
          rw [← h2, List.drop_take, List.take_take, Nat.min_eq_left (by omega)]
    · have e : (offset + n) % 18446744073709551616 = offset + n - 18446744073709551616 := by omega
      rw [e, hs, if_pos (Or.inl (by omega))]
      by_cases hlt : D.length < offset + n - 18446744073709551616
      · rw [if_pos hlt, if_neg (by omega)]
      · rw [if_neg hlt, if_pos (by omega), if_pos ⟨by simp, by omega, by omega⟩]

end Verif.Mdat
