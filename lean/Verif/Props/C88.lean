import Verif.Props.C87

/-! # C88: a file read through a window -/

namespace Verif.Stream

theorem windowOf_eq {o : Nat} (h : o < 2 ^ 64) : windowOf o = o / 16777216 * 16777216 := by
  have e1 : (0xFFFFFFFFFF000000 : Nat) = (2 ^ 40 - 1) <<< 24 := by decide
  have e2 : o / 16777216 * 16777216 = (o >>> 24) <<< 24 := by
    rw [Nat.shiftLeft_eq, Nat.shiftRight_eq_div_pow]
  rw [windowOf, e1, e2]
  apply Nat.eq_of_testBit_eq
  intro i
  simp only [Nat.testBit_and, Nat.testBit_shiftLeft, Nat.testBit_two_pow_sub_one,
    Nat.testBit_shiftRight]
  by_cases hi : 24 ≤ i
  · have : 24 + (i - 24) = i := by omega
    simp only [this, ge_iff_le, hi, decide_true, Bool.true_and]
    by_cases h2 : i - 24 < 40
    · simp [h2]
    · rw [Nat.testBit_lt_two_pow (Nat.lt_of_lt_of_le h (Nat.pow_le_pow_right (by omega) (by omega)))]
      rfl
  · simp [hi]

/-- The state of a mapping object that works. -/
def Win.Good (file : Bytes) (w : Win) : Prop :=
  w.file = file ∧ w.mapped = true ∧ w.window % 16777216 = 0 ∧ w.window < file.length ∧
    w.size = span (file.length - w.window)

theorem span_cases (n : Nat) : (n ≤ 33554432 ∧ span n = n) ∨ (33554432 < n ∧ span n = 33554432) := by
  by_cases h : n > residue
  · exact .inr ⟨h, if_pos h⟩
  · exact .inl ⟨Nat.le_of_not_lt h, if_neg h⟩

theorem Win.open_good {file : Bytes} (h0 : file ≠ []) :
    ∃ w, Win.open file = .ok w ∧ w.Good file := by
  have hl : 0 < file.length := List.length_pos_iff.mpr h0
  have hs : span file.length ≠ 0 := by
    rcases span_cases file.length with h | h <;> omega
  refine ⟨⟨file, 0, span file.length, true⟩, ?_, rfl, rfl, rfl, hl, rfl⟩
  have hm : mmap (span file.length) 0 = true := by simp [mmap, hs]
  simp only [Win.open, hm, if_true]

theorem Win.move_good {file : Bytes} (hf : file.length < 2 ^ 63) {w : Win} (hw : w.Good file)
    {o : Nat} (ho : o ≤ file.length) (he : ¬ (o = file.length ∧ file.length % 16777216 = 0)) :
    (w.move o).1 = .ok () ∧ (w.move o).2.Good file ∧
      (w.move o).2.window = o / 16777216 * 16777216 := by
  obtain ⟨h1, h2, h3, h4, h5⟩ := hw
  have e := windowOf_eq (o := o) (by omega)
  have hlt : o / 16777216 * 16777216 < file.length := by omega
  by_cases hc : w.window = windowOf o
  · simp only [Win.move, if_pos hc]
    exact ⟨trivial, ⟨h1, h2, h3, h4, h5⟩, by rw [hc, e]⟩
  · have hrest : (file.length + 2 ^ 64 - o / 16777216 * 16777216) % 18446744073709551616 =
        file.length - o / 16777216 * 16777216 := by omega
    have hs : span (file.length - o / 16777216 * 16777216) ≠ 0 := by
      rcases span_cases (file.length - o / 16777216 * 16777216) with h | h <;> omega
    have hm : mmap (span (file.length - o / 16777216 * 16777216)) (o / 16777216 * 16777216) = true := by
      simp only [mmap, bne_iff_ne, ne_eq, hs, not_false_eq_true, Bool.and_eq_true,
        decide_eq_true_eq, true_and]
      omega
    rw [e] at hc
    simp only [Win.move, e, if_neg hc, h2, h1, hrest, hm, if_true, Bool.true_eq_false, if_false]
    exact ⟨trivial, ⟨rfl, rfl, by simp, hlt, rfl⟩, trivial⟩

theorem Win.copyN_good {file : Bytes} (hf : file.length < 2 ^ 63) (fuel : Nat) :
    ∀ {w : Win} {o n : Nat}, w.Good file → n < fuel → n < 2 ^ 32 → o + n ≤ file.length →
      ¬ Edge file (o, n) →
      (w.copyN fuel o n).1 = .ok (piece file o n) ∧ (w.copyN fuel o n).2.Good file := by
  induction fuel with
  | zero => intro w o n _ h; omega
  | succ fuel ih =>
    intro w o n hw hfu hn ho he
    have hwf := hw.1
    have hsum : (o + n) % 18446744073709551616 = o + n := Nat.mod_eq_of_lt (by omega)
    have he' : ¬ (o = file.length ∧ file.length % 16777216 = 0) := by
      rintro ⟨a, b⟩
      exact he ⟨by simp only; omega, a, b⟩
    obtain ⟨m1, m2, m3⟩ := Win.move_good hf hw (o := o) (by omega) he'
    simp only [Win.copyN, hsum, hwf]
    rw [if_neg (by omega)]
    simp only [m1]
    generalize w.move o = r at m1 m2 m3 ⊢
    obtain ⟨r1, v⟩ := r
    simp only at m1 m2 m3 ⊢
    obtain ⟨g1, g2, g3, g4, g5⟩ := m2
    have hsp := span_cases (file.length - v.window)
    by_cases hc : o - v.window + n > v.size
    · rw [if_pos hc]
      have hv : v.size = 33554432 := by omega
      have hlen : (v.size + 2 ^ 64 - (o - v.window)) % 4294967296 = v.size - (o - v.window) := by
        omega
      rw [hlen]
      have hfe : v.fetch (o - v.window) (v.size - (o - v.window)) =
          .ok (piece file o (v.size - (o - v.window))) := by
        simp only [Win.fetch, g1]
        rw [if_pos ⟨g2, by omega, by omega⟩, show v.window + (o - v.window) = o by omega]
        rfl
      simp only [hfe]
      have hn' : (n + 2 ^ 32 - (v.size - (o - v.window))) % 4294967296 =
          n - (v.size - (o - v.window)) := by omega
      rw [hn']
      have key := @ih v (v.window + v.size) (n - (v.size - (o - v.window)))
        ⟨g1, g2, g3, g4, g5⟩ (by omega) (by omega) (by omega)
        (by rintro ⟨a, _, _⟩; simp only at a; omega)
      refine ⟨?_, key.2⟩
      rw [key.1]
      simp only [ok_bind']
      rw [show v.window + v.size = o + (v.size - (o - v.window)) by omega, ← piece_add]
      congr 2; omega
    · rw [if_neg hc]
      refine ⟨?_, ⟨g1, g2, g3, g4, g5⟩⟩
      simp only [Win.fetch, g1]
      rw [if_pos ⟨g2, by omega, by omega⟩, show v.window + (o - v.window) = o by omega]
      rfl

theorem Win.copy_refused {w : Win} {o n : Nat} (h : w.file.length < o + n)
    (hs : o + n < 2 ^ 64) : w.copy o n = (.err .ioErr, w) := by
  have hsum : (o + n) % 18446744073709551616 = o + n := Nat.mod_eq_of_lt (by omega)
  simp only [Win.copy, Win.copyN, hsum]
  exact if_pos h

/-- **C88, reads.** However a file was read before, through whichever windows: reading at an offset
gives the bytes at that offset, also across windows, and an error when the file has not as many.
The two exceptions are `c88_not_after_nothing` and `c88_not_after_wrap`. -/
theorem c88_reads_partial (file : Bytes) (h0 : file ≠ []) (hf : file.length < 2 ^ 63) :
    ∃ w, Win.open file = .ok w ∧
      ∀ rs : List (Nat × Nat), (∀ r ∈ rs, r.2 < 2 ^ 32 ∧ r.1 + r.2 < 2 ^ 64 ∧ ¬ Edge file r) →
        reads w rs = rs.map (wanted file) := by
  obtain ⟨w, hw, hg⟩ := Win.open_good h0
  refine ⟨w, hw, fun rs => ?_⟩
  clear hw
  induction rs generalizing w with
  | nil => intro _; rfl
  | cons r rs ih =>
    intro h
    obtain ⟨o, n⟩ := r
    obtain ⟨h1, h2, h3⟩ := h (o, n) (by simp)
    simp only at h1 h2
    by_cases hp : o + n ≤ file.length
    · obtain ⟨a, b⟩ := Win.copyN_good hf (n + 1) hg (Nat.lt_succ_self n) h1 hp h3
      simp only [reads, Win.copy, a, List.map_cons, wanted, if_pos hp]
      rw [ih _ b (fun r hr => h r (by simp [hr]))]
    · have hr := Win.copy_refused (w := w) (o := o) (n := n) (by rw [hg.1]; omega) h2
      simp only [reads, hr, List.map_cons, wanted, if_neg hp]
      rw [ih _ hg (fun r hr => h r (by simp [hr]))]

/-- An empty file is not opened. -/
theorem c88_empty : Win.open [] = .err .ioErr := by decide

theorem Win.stuck_step {w : Win} (h : w.mapped = false) (o n : Nat) :
    (∀ d, (w.copy o n).1 ≠ .ok d) ∧ (w.copy o n).2.mapped = false := by
  have hm : (w.move o).2 = w := by
    simp only [Win.move, h, if_true]
    split <;> rfl
  have hfe : ∀ a b, w.fetch a b = .ub := by
    intro a b
    simp only [Win.fetch, h]
    exact if_neg (by simp)
  simp only [Win.copy, Win.copyN]
  by_cases hc : (o + n) % 18446744073709551616 > w.file.length
  · rw [if_pos hc]; exact ⟨by simp, h⟩
  · rw [if_neg hc, hm]
    cases (w.move o).1 with
    | err e => exact ⟨by simp, h⟩
    | ub => exact ⟨by simp, h⟩
    | ok _ =>
      simp only [hfe]
      split
      · exact ⟨by simp, h⟩
      · exact ⟨by simp, h⟩

theorem Win.stuck (rs : List (Nat × Nat)) : ∀ {w : Win}, w.mapped = false →
    ∀ r ∈ reads w rs, ∀ d, r ≠ .ok d := by
  induction rs with
  | nil => intro w _ r hr; simp [reads] at hr
  | cons q rs ih =>
    intro w h r hr
    obtain ⟨o, n⟩ := q
    obtain ⟨a, b⟩ := Win.stuck_step h o n
    simp only [reads, List.mem_cons] at hr
    rcases hr with rfl | hr
    · exact a
    · exact ih b r hr

/-- Reading nothing at the end of a file whose length is a multiple of 16 MiB fails (`mmap` of
nothing), and nothing can be read from the file any more. -/
theorem c88_not_after_nothing (file : Bytes) (h0 : file ≠ []) (hf : file.length < 2 ^ 63)
    (he : file.length % 16777216 = 0) :
    ∃ w, Win.open file = .ok w ∧ (w.copy file.length 0).1 = .err .ioErr ∧
      ∀ rs, ∀ r ∈ reads (w.copy file.length 0).2 rs, ∀ d, r ≠ .ok d := by
  obtain ⟨w, hw, g1, g2, g3, g4, g5⟩ := Win.open_good h0
  have e : windowOf file.length = file.length := by
    rw [windowOf_eq (by omega)]; omega
  have hm : w.move file.length = (.err .ioErr, { w with window := file.length, size := 0, mapped := false }) := by
    have hz : (file.length + 2 ^ 64 - file.length) % 18446744073709551616 = 0 := by omega
    have hs : span 0 = 0 := by simp [span]
    simp only [Win.move, e, g1, g2, hz, hs]
    rw [if_neg (by omega)]
    simp [mmap]
  have hc : w.copy file.length 0 =
      (.err .ioErr, { w with window := file.length, size := 0, mapped := false }) := by
    have hsum : (file.length + 0) % 18446744073709551616 = file.length := by omega
    simp only [Win.copy, Win.copyN, hsum]
    rw [if_neg (by rw [g1]; omega)]
    simp only [hm]
  refine ⟨w, hw, by rw [hc], fun rs => ?_⟩
  rw [hc]
  exact Win.stuck rs rfl

/-- An offset so large that adding the length wraps (the offsets of a `co64` box are 64 bits) is not
refused as outside of the file: the window is given up and nothing can be read from the file any
more. -/
theorem c88_not_after_wrap (file : Bytes) (h0 : file ≠ []) (hf : file.length < 2 ^ 63)
    (o n : Nat) (ho : o < 2 ^ 64) (hn : n < 2 ^ 32) (hs : 2 ^ 64 ≤ o + n)
    (hp : o + n - 2 ^ 64 ≤ file.length) :
    ∃ w, Win.open file = .ok w ∧ (w.copy o n).1 = .err .ioErr ∧
      ∀ rs, ∀ r ∈ reads (w.copy o n).2 rs, ∀ d, r ≠ .ok d := by
  obtain ⟨w, hw, g1, g2, g3, g4, g5⟩ := Win.open_good h0
  have e : windowOf o = o / 16777216 * 16777216 := windowOf_eq ho
  have hm : (w.move o).1 = .err .ioErr ∧ (w.move o).2.mapped = false := by
    have hmm : ∀ k, mmap k (o / 16777216 * 16777216) = false := by
      intro k
      have : ¬ o / 16777216 * 16777216 < 2 ^ 63 := by omega
      simp only [mmap, this, decide_false, Bool.and_false]
    simp only [Win.move, e, g2, hmm]
    rw [if_neg (by omega)]
    simp
  have hc : (w.copy o n).1 = .err .ioErr ∧ (w.copy o n).2.mapped = false := by
    have hsum : (o + n) % 18446744073709551616 = o + n - 2 ^ 64 := by omega
    simp only [Win.copy, Win.copyN, hsum, g1]
    rw [if_neg (by omega)]
    simp only [hm.1]
    exact ⟨trivial, hm.2⟩
  exact ⟨w, hw, hc.1, fun rs => Win.stuck rs hc.2⟩

/-- Where a stream over a window stands. -/
def Win.at (file : Bytes) (s : File Win) (p : Nat) : Prop :=
  ∃ w : Win, s = ⟨file.length - p, p, w⟩ ∧ w.Good file ∧ p ≤ file.length

theorem Win.sim {file : Bytes} (hf : file.length < 2 ^ 63) :
    Sim (File.impl windowed) .ioErr file (file.length % 16777216 ≠ 0) (Win.at file) where
  le h := h.elim fun _ h => h.2.2
  avail := by rintro s p ⟨w, rfl, _⟩; rfl
  offset := by rintro s p ⟨w, rfl, _⟩; rfl
  data_ok := by
    rintro s c n ⟨w, rfl, hg, h⟩ hn hz hp
    have h1 : n % 4294967296 = n := Nat.mod_eq_of_lt (by omega)
    have h2 : (c + n) % 18446744073709551616 = c + n := Nat.mod_eq_of_lt (by omega)
    have key := Win.copyN_good hf (n + 1) hg (Nat.lt_succ_self n) hn hp
      (by rintro ⟨a, _, b⟩; exact hz a b)
    simp only [File.impl, File.data, shift_zero hn, h1, h2, ne_eq, not_true_eq_false, if_false]
    rw [if_neg (by omega)]
    refine ⟨key.1, _, ?_, key.2, hp⟩
    simp only [File.mk.injEq]; exact ⟨by omega, trivial, rfl⟩
  data_no := by
    rintro s c n ⟨w, rfl, hg, h⟩ hn hp
    have h1 : n % 4294967296 = n := Nat.mod_eq_of_lt (by omega)
    simp only [File.impl, File.data, shift_zero hn, h1, ne_eq, not_true_eq_false, if_false]
    exact if_pos (by omega)
  data_far := by
    rintro s c n ⟨w, rfl, hg, h⟩ hn
    simp only [File.impl, File.data]
    exact if_pos (shift_ne hn)
  skip_ok := by
    rintro s c n ⟨w, rfl, hg, h⟩ hp
    have h2 : (c + n) % 18446744073709551616 = c + n := Nat.mod_eq_of_lt (by omega)
    simp only [File.impl, File.skip, h2]
    rw [if_neg (by omega)]
    refine ⟨rfl, w, ?_, hg, hp⟩
    simp only [File.mk.injEq, and_true]; omega
  skip_no := by
    rintro s c n ⟨w, rfl, hg, h⟩ hp
    simp only [File.impl, File.skip, ite_self]
    exact if_pos (by omega)
  rewind_ok := by
    rintro s c n ⟨w, rfl, hg, h⟩ hn
    have h2 : (file.length - c + n) % 18446744073709551616 = file.length - c + n :=
      Nat.mod_eq_of_lt (by omega)
    simp only [File.impl, File.rewind, h2]
    rw [if_neg (by omega)]
    refine ⟨rfl, w, ?_, hg, by omega⟩
    simp only [File.mk.injEq, and_true]; omega

/-- **C88, reading functions.** A reading function gives on a stream over a window what it gives on
the list of the bytes, for every file whose length is no multiple of 16 MiB. -/
theorem c88_parsers_partial {α : Type} (file : Bytes) (h0 : file ≠ []) (hf : file.length < 2 ^ 63)
    (he : file.length % 16777216 ≠ 0) (g : Prog α) (count : Nat) :
    ∃ w, Win.open file = .ok w ∧
      g.onStream (File.impl windowed) (File.create file.length w) count =
        outcome (g.onBytes ⟨file, count⟩) := by
  obtain ⟨w, hw, hg⟩ := Win.open_good h0
  refine ⟨w, hw, ?_⟩
  have := (Win.sim hf).prog he g (s := File.create file.length w) (p := 0) count
    ⟨w, rfl, hg, Nat.zero_le _⟩
  simpa using this

/-- **C88, streams.** Any calls on a stream over a window, except for going back before the start
(refused, as for the other streams over files) and, at a length that is a multiple of 16 MiB, for
reading nothing. -/
theorem c88_stream_partial (file : Bytes) (h0 : file ≠ []) (hf : file.length < 2 ^ 63)
    (ops : List Op) (he : .data 0 ∈ ops → file.length % 16777216 ≠ 0)
    (hw : Within .ioErr file 0 ops) :
    ∃ w, Win.open file = .ok w ∧
      run (File.impl windowed) (File.create file.length w) ops = answers .ioErr file 0 ops := by
  obtain ⟨w, hw', hg⟩ := Win.open_good h0
  exact ⟨w, hw', (Win.sim hf).run ops ⟨w, rfl, hg, Nat.zero_le _⟩
    (fun op ho e => he (e ▸ ho)) hw⟩

/-- A file of 40 MiB has requests in both windows and across them that meet the hypotheses. -/
example (file : Bytes) (h : file.length = 41943040) : (∀ r ∈
    [(3, 5), (16777210, 25165824), (33554430, 8), (41943040, 0), (41943040, 1)],
    r.2 < 2 ^ 32 ∧ r.1 + r.2 < 2 ^ 64 ∧ ¬ Edge file r) ∧ file ≠ [] ∧
    file.length % 16777216 ≠ 0 := by
  refine ⟨by simp [Edge, h], ?_, by omega⟩
  rintro rfl; simp at h

/-- A file of 32 MiB, and an offset of all ones. -/
example (file : Bytes) (h : file.length = 33554432) : file.length % 16777216 = 0 ∧
    (2 : Nat) ^ 64 ≤ (2 ^ 64 - 1) + 100 ∧ (2 ^ 64 - 1) + 100 - 2 ^ 64 ≤ file.length := by omega

example : (do let w ← Win.open [1, 2, 3, 4, 5]; pure (reads w [(1, 3), (4, 2), (5, 0), (0, 5)])) =
    .ok [.ok [2, 3, 4], .err .ioErr, .ok [], .ok [1, 2, 3, 4, 5]] := by decide

example : (do let w ← Win.open [1, 2, 3, 4, 5]
              pure (reads w [(1, 3), (18446744073709551615, 2), (1, 3)])) =
    .ok [.ok [2, 3, 4], .err .ioErr, .err .ioErr] := by decide

end Verif.Stream
