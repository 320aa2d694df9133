import Verif.Lemmas.Mdat
import Verif.Lemmas.Box

/-!
# C24 — reading sample data never reads outside the media data
-/

namespace Verif.Mdat

/-- The media data boxes a program can come by, with the bytes each one holds: a new box; a box
parsed from any input (it holds the bytes that follow its header, or nothing when they are 2^31 or
more and so are left in the file); a box after adding a handle's bytes, or after merging another
box into it. Memory obtained by growing holds anything (`junk`). -/
inductive Holds : T → Bytes → Prop
  | create : Holds create []
  | parsed {inp rest : Bytes} {off : Nat} {t : T} {h : Hdr}
      (p : parseAtom (parseBody off) inp = .ok (t, h, rest)) :
      Holds t ((inp.drop h.hlen).take t.dataSize)
  | add {t t' : T} {D bs : Bytes} {junk : Nat → UInt8} (b : Holds t D)
      (e : addData junk t bs = .ok t') : Holds t' (D ++ bs)
  | merge {t o t' : T} {D E : Bytes} {junk : Nat → UInt8} (b : Holds t D) (c : Holds o E)
      (e : addMdat junk t o = .ok t') : Holds t' (D ++ E)

theorem rd32_drop {inp r : Bytes} {v : Nat} (h : rd32 inp = .ok (v, r)) : r = inp.drop 4 := by
  match inp with
  | [] => simp [rd32] at h
  | [_] => simp [rd32] at h
  | [_, _] => simp [rd32] at h
  | [_, _, _] => simp [rd32] at h
  | a :: b :: c :: d :: r' =>
    rw [rd32_cons] at h
    injection h with h
    injection h with _ h
    exact h.symm

/-- The header parser hands on the bytes after the header. -/
theorem parseHeader_drop {inp r : Bytes} {h : Hdr} (e : parseHeader inp = .ok (h, r)) :
    r = inp.drop h.hlen := by
  unfold parseHeader at e
  rw [Res.bind_eq_ok] at e
  obtain ⟨⟨size0, r1⟩, e1, e⟩ := e
  dsimp only at e
  generalize hsz : (if size0 = 0 then (if r1.length + 4 < 4294967296 then r1.length + 4 else 1)
    else size0) = size at e
  split at e
  · cases e
  rw [Res.bind_eq_ok] at e
  obtain ⟨⟨type, r2⟩, e2, e⟩ := e
  rw [Res.bind_eq_ok] at e
  obtain ⟨⟨uuid, r3, n⟩, e3, e⟩ := e
  rw [Res.bind_eq_ok] at e
  obtain ⟨⟨size64, r4, m⟩, e4, e⟩ := e
  dsimp only at e e2 e3 e4
  split at e
  · cases e
  injection e with e
  injection e with ea eb
  subst ea
  subst eb
  have d1 := rd32_drop e1
  have d2 := rd32_drop e2
  have d3 : r3 = inp.drop n := by
    split at e3
    · split at e3
      · cases e3
      · injection e3 with e3
        injection e3 with _ e3
        injection e3 with e3 e3'
        rw [← e3, ← e3', d2, d1, List.drop_drop, List.drop_drop]
    · injection e3 with e3
      injection e3 with _ e3
      injection e3 with e3 e3'
      rw [← e3, ← e3', d2, d1, List.drop_drop]
  show r4 = inp.drop m
  split at e4
  · rw [Res.bind_eq_ok] at e4
    obtain ⟨⟨hi, r5⟩, e5, e4⟩ := e4
    rw [Res.bind_eq_ok] at e4
    obtain ⟨⟨lo, r6⟩, e6, e4⟩ := e4
    injection e4 with e4
    injection e4 with _ e4
    injection e4 with e4 e4'
    dsimp only at e5 e6 e4 e4'
    have d5 := rd32_drop e5
    have d6 := rd32_drop e6
    rw [← e4, ← e4', d6, d5, d3, List.drop_drop, List.drop_drop]
  · injection e4 with e4
    injection e4 with _ e4
    injection e4 with e4 e4'
    rw [← e4, ← e4', d3]

theorem parseBody_rep {off : Nat} {h : Hdr} {s s' : PS} {t : T}
    (e : parseBody off h s = .ok (t, s')) : Rep t (s.rest.take t.dataSize) := by
  unfold parseBody at e
  generalize bytesToRead h s.read = n at e
  by_cases h1 : n >>> 31 > 0
  · rw [if_pos h1, P.bind_apply] at e
    unfold skipData at e
    by_cases h2 : s.rest.length < n
    · rw [if_pos h2] at e; cases e
    · rw [if_neg h2] at e
      injection e with e
      injection e with e _
      subst e
      exact ⟨by simp, fun _ => rfl, (by intro c hc; cases hc), by simp⟩
  · rw [if_neg h1] at e
    by_cases h3 : n > 0
    · rw [if_pos h3, P.bind_apply] at e
      unfold getBytes at e
      by_cases h2 : s.rest.length < n
      · rw [if_pos h2] at e; cases e
      · rw [if_neg h2] at e
        injection e with e
        injection e with e _
        subst e
        have hl : (s.rest.take n).length = n := by rw [List.length_take]; omega
        refine ⟨hl.symm, (by intro hc; cases hc), ?_, ?_⟩
        · intro c hc
          injection hc with hc
          subst hc
          exact ⟨hl, List.take_of_length_le (Nat.le_refl _)⟩
        · show (s.rest.take n).length ≤ n
          omega
    · rw [if_neg h3] at e
      injection e with e
      injection e with e _
      subst e
      exact rep_create

theorem rep_parsed {inp rest : Bytes} {off : Nat} {t : T} {h : Hdr}
    (p : parseAtom (parseBody off) inp = .ok (t, h, rest)) :
    Rep t ((inp.drop h.hlen).take t.dataSize) := by
  unfold parseAtom at p
  cases e1 : parseHeader inp with
  | err e => rw [e1] at p; cases p
  | ub => rw [e1] at p; cases p
  | ok hr =>
    obtain ⟨h', r⟩ := hr
    rw [e1] at p
    dsimp only at p
    cases e2 : parseBody off h' ⟨r, h'.hlen⟩ with
    | err e => rw [e2] at p; cases p
    | ub => rw [e2] at p; cases p
    | ok ts =>
      obtain ⟨t', s⟩ := ts
      rw [e2] at p
      dsimp only at p
      injection p with p
      injection p with pa pb
      injection pb with pb pc
      subst pa
      subst pb
      rw [← parseHeader_drop e1]
      exact parseBody_rep e2

theorem Holds.bound {t : T} {D : Bytes} (h : Holds t D) (hD : D.length < 9223372036854775808) :
    Rep t D := by
  induction h with
  | create => exact rep_create
  | parsed p => exact rep_parsed p
  | @add t t' D bs junk b e ih =>
    obtain ⟨t'', e1, e2, _⟩ := addData_ok junk (ih (by rw [List.length_append] at hD; omega)) hD
    rw [e] at e1
    injection e1 with e1
    subst e1
    exact e2
  | @merge t o t' D E junk b c e ih1 ih2 =>
    have hD' := hD
    rw [List.length_append] at hD'
    rcases addMdat_ok junk (ih1 (by omega)) (ih2 (by omega)) hD with ⟨_, e1⟩ | ⟨t'', e1, e2, _⟩
    · rw [e] at e1; cases e1
    · rw [e] at e1
      injection e1 with e1
      subst e1
      exact e2

/-- **C24.** For every media data box, however it came about, with less than 2^63 bytes, and every
64-bit offset and 32-bit length: copying either fails with an error, or the range lies inside the
data (sums taken without wrapping) and exactly its bytes are returned. -/
theorem c24_copy_in_bounds {t : T} {D : Bytes} (h : Holds t D) (hD : D.length < 2 ^ 63)
    (offset n : Nat) (ho : offset < 2 ^ 64) (hn : n < 2 ^ 32) :
    (∃ e, copyData t offset n = .err e) ∨
      (offset + n ≤ D.length ∧ copyData t offset n = .ok ((D.drop offset).take n)) := by
  rw [copyData_cases (h.bound hD) (by omega) ho hn]
  by_cases h1 : D.length < offset + n ∨ t.data = none
  · rw [if_pos h1]
    left
    split <;> exact ⟨_, rfl⟩
  · rw [if_neg h1]
    by_cases h2 : 4294967296 ≤ offset
    · rw [if_pos h2]; exact Or.inl ⟨_, rfl⟩
    · rw [if_neg h2]; right; exact ⟨by omega, rfl⟩

/-- Every non-empty range that lies inside the data and starts below 2^32 is delivered. -/
theorem c24_copy_delivers {t : T} {D : Bytes} (h : Holds t D) (hD : D.length < 2 ^ 63)
    (offset n : Nat) (hn0 : 0 < n) (hr : offset + n ≤ D.length) (ho : offset < 2 ^ 32)
    (hn : n < 2 ^ 32) : copyData t offset n = .ok ((D.drop offset).take n) := by
  have hr' := h.bound hD
  have hnone : t.data ≠ none := by
    intro hc
    have := hr'.null hc
    have := hr'.fits
    omega
  rw [copyData_cases hr' (by omega) (by omega) hn, if_neg (by simp only [hnone, or_false]; omega),
    if_neg (by omega)]

/-- Adding data and merging boxes never go out of bounds either, and do what `Holds` says. -/
theorem c24_add_in_bounds {t o : T} {D E bs : Bytes} (h : Holds t D) (ho : Holds o E)
    (junk : Nat → UInt8) (h1 : (D ++ bs).length < 2 ^ 63) (h2 : (D ++ E).length < 2 ^ 63) :
    (∃ t', addData junk t bs = .ok t') ∧
      ((∃ t', addMdat junk t o = .ok t') ∨ addMdat junk t o = .err .notImplemented) := by
  have h1' := h1
  have h2' := h2
  rw [List.length_append] at h1' h2'
  have r := h.bound (by omega)
  refine ⟨?_, ?_⟩
  · obtain ⟨t', e, _⟩ := addData_ok junk r h1
    exact ⟨t', e⟩
  · rcases addMdat_ok junk r (ho.bound (by omega)) h2 with ⟨_, e⟩ | ⟨t', e, _⟩
    · exact Or.inr e
    · exact Or.inl ⟨t', e⟩

/-- Parsing any input as a media data box never goes out of bounds. -/
theorem c24_parse_defined (off : Nat) (h : Hdr) (s : PS) : parseBody off h s ≠ .ub := by
  unfold parseBody
  generalize bytesToRead h s.read = n
  by_cases h1 : n >>> 31 > 0
  · rw [if_pos h1, P.bind_apply]
    unfold skipData
    by_cases h2 : s.rest.length < n
    · rw [if_pos h2]; intro hc; cases hc
    · rw [if_neg h2]; intro hc; cases hc
  · rw [if_neg h1]
    by_cases h3 : n > 0
    · rw [if_pos h3, P.bind_apply]
      unfold getBytes
      by_cases h2 : s.rest.length < n
      · rw [if_pos h2]; intro hc; cases hc
      · rw [if_neg h2]; intro hc; cases hc
    · rw [if_neg h3]; intro hc; cases hc

/-- A box made by parsing `00 00 00 0B mdat 01 02 03` and adding `04 05`; reading its bytes 1 to 3,
reading past the end, and a length whose sum with the offset wraps to a small number. -/
example : ∃ t, Holds t [1, 2, 3, 4, 5] ∧ copyData t 1 3 = .ok [2, 3, 4] ∧
    copyData t 3 3 = .err .badParam ∧
    copyData t 18446744073709551615 3 = .err .notImplemented := by
  have p : parseAtom (parseBody 0) [0, 0, 0, 11, 109, 100, 97, 116, 1, 2, 3] =
      .ok (⟨some [1, 2, 3], 3, 3, 8⟩, ⟨11, typeMdat, [], 0, 8⟩, []) := by decide
  have b := Holds.parsed p
  obtain ⟨t', e, e2, _⟩ := addData_ok (fun _ => 0) (bs := [4, 5]) (b.bound (by decide)) (by decide)
  refine ⟨t', b.add e, ?_, ?_, ?_⟩
  · exact c24_copy_delivers (b.add e) (by decide) 1 3 (by decide) (by decide) (by decide) (by decide)
  · rw [copyData_cases e2 (by decide) (by decide) (by decide), if_pos (Or.inl (by decide)),
      if_neg (by intro hc; exact absurd hc.2.2 (by decide))]
  · have hn : t'.data ≠ none := by
      intro hc
      have h1 := e2.null hc
      have h2 := e2.fits
      rw [h1] at h2
      revert h2
      decide
    rw [copyData_cases e2 (by decide) (by decide) (by decide), if_pos (Or.inl (by decide)),
      if_pos ⟨hn, by decide, by decide⟩]

end Verif.Mdat
