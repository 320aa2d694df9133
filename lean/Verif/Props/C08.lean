import Verif.Lemmas.Stts

/-!
# C08 — time to sample number picks the sample playing at that time
-/

namespace Verif.Stts

/-- Sample `k` (0-based) of duration `d` is the one playing at time `t`: its half-open interval
contains `t`. -/
def PlaysAt (durs : List Nat) (t k d : Nat) : Prop :=
  durs[k]? = some d ∧ startOf durs k ≤ t ∧ t < startOf durs k + d

/-- `findSamples`, for every time below the total duration, returns the first sample that plays at
`t` or starts exactly at `t` (a sample of zero duration can only do the latter); the sample's
duration; and its start, in `exactSample` if that is set and in `priorSample` otherwise. When `t` is the start
of a run (a boundary between entries) `exactSample` is set. -/
theorem c08_find_samples (es : List (Nat × Nat)) (hes : NoOverflow es) (hpos : ∀ e ∈ es, 0 < e.1)
    (t : Nat) (ht : t < (expand es).sum) :
    ∃ r k d, findSamples es t = .ok r ∧ r.num = k + 1 ∧ r.dur = some d ∧
      (expand es)[k]? = some d ∧ startOf (expand es) k ≤ t ∧
      (t < startOf (expand es) k + d ∨ startOf (expand es) k = t) ∧
      (∀ j d', j < k → (expand es)[j]? = some d' →
        startOf (expand es) j + d' ≤ t ∧ startOf (expand es) j < t) ∧
      (if r.exact ≠ m1 then r.exact else r.prior) = startOf (expand es) k ∧
      (∀ a b, es = a ++ b → (expand a).sum = t → r.exact = t) := by
  have hsum : (expand es).sum < 18446744073709551615 := by
    have : (expand es).sum ≤ (expand es).length * 4294967295 := by
      apply sum_lt_of_lt
      intro x hx
      obtain ⟨c, hc⟩ := mem_expand hx
      have := hes.dur _ hc
      simp only [] at this
      omega
    have := hes.count
    omega
  obtain ⟨r, k, d, h1, h2, h3, h4, h5, h6, h7, h8, h9⟩ := findLoop_spec t (by unfold m1; omega) es 0 1
    ⟨m1, m1, m1, 0, none, false⟩ (fun e he => ⟨hpos e he, hes.run e he, hes.dur e he⟩)
    (by omega) (by have := hes.count; omega) (by omega) (by omega) (by simp) (by simp)
  refine ⟨r, k, d, h1, by omega, h3, h4, by omega, by omega, ?_, ?_, ?_⟩
  · intro j d' hj hd
    have := h7 j d' hj hd
    omega
  · have hs := startOf_le_sum (expand es) k
    rcases h8 with h | ⟨h, h'⟩
    · rw [if_pos (by rw [h]; unfold m1; omega), h]; omega
    · rw [if_neg (by simp [h]), h']; omega
  · intro a b hab hs; exact h9 a b hab (by omega)

theorem playsAt_unique {durs : List Nat} {t k d k' d' : Nat} (h : PlaysAt durs t k d)
    (h' : PlaysAt durs t k' d') : k = k' := by
  have step : ∀ a b da : Nat, durs[a]? = some da → a < b → startOf durs a + da ≤ startOf durs b := by
    intro a b da ha hab
    obtain ⟨hlt, hg⟩ := List.getElem?_eq_some_iff.mp ha
    unfold startOf
    have e1 : durs.take b = durs.take (a + 1) ++ (durs.take b).drop (a + 1) := by
      conv => lhs; rw [← List.take_append_drop (a + 1) (durs.take b)]
      rw [List.take_take, Nat.min_eq_left (by omega)]
    rw [e1, List.take_succ_eq_append_getElem hlt, List.sum_append, List.sum_append, hg]
    simp
  obtain ⟨a1, a2, a3⟩ := h
  obtain ⟨b1, b2, b3⟩ := h'
  rcases Nat.lt_trichotomy k k' with hk | hk | hk
  · have := step _ _ _ a1 hk; omega
  · exact hk
  · have := step _ _ _ b1 hk; omega

example : NoOverflow [(3, 10), (1, 0), (2, 7)] ∧ (∀ e ∈ [(3, 10), (1, 0), (2, 7)], 0 < e.1) ∧
    findSamples [(3, 10), (1, 0), (2, 7)] 38 = .ok ⟨37, m1, 44, 6, some 7, true⟩ ∧
    findSamples [(3, 10), (1, 0), (2, 7)] 30 = .ok ⟨20, 30, 30, 4, some 0, true⟩ :=
  ⟨⟨by decide, by decide, by decide⟩, by decide, by decide, by decide⟩

/-- `MP4MediaTimeToSampleNum`: when no sample has zero duration, the sample number and duration
returned are those of the sample playing at `t`. The decoding time returned is right when that
sample is the first of its run, and is right or `-1` otherwise. The full property (the decoding
time is always the start of the sample) is false, see `c08_api_wrong_time`; with samples of zero
duration an earlier sample can be returned, see `c08_api_zero_duration`. -/
theorem c08_api_partial (es : List (Nat × Nat)) (hes : NoOverflow es)
    (hpos : ∀ e ∈ es, 0 < e.1 ∧ 0 < e.2) (t : Nat) (ht : t < (expand es).sum) :
    ∃ k d dts, mediaTimeToSampleNum es t = .ok (k + 1, dts, some d) ∧ PlaysAt (expand es) t k d ∧
      (dts = startOf (expand es) k ∨ dts = 18446744073709551615) ∧
      (∀ a b, es = a ++ b → k = (expand a).length → dts = startOf (expand es) k) := by
  have hd : ∀ (j d : Nat), (expand es)[j]? = some d → 0 < d := by
    intro j d h
    obtain ⟨c, hc⟩ := mem_expand (List.mem_of_getElem? h)
    exact (hpos _ hc).2
  have hsum := hes.sum_lt
  obtain ⟨r, k, d, h1, h2, h3, h4, h5, h6, h7, h8, h9⟩ :=
    c08_find_samples es hes (fun e he => (hpos e he).1) t ht
  have hkp : PlaysAt (expand es) t k d := ⟨h4, h5, by have := hd _ _ h4; omega⟩
  unfold mediaTimeToSampleNum
  simp only [h1]
  by_cases hex : r.exact ≠ m1
  · rw [if_pos hex] at h8 ⊢
    refine ⟨k, d, r.exact, by rw [h2, h3], hkp, Or.inl h8, fun _ _ _ _ => h8⟩
  · rw [if_neg hex] at h8 ⊢
    have hsk : startOf (expand es) k < m1 := by
      unfold m1; omega
    rw [if_pos (by omega)]
    obtain ⟨g, k', d', g1, g2, g3, g4, g5, g6, g7, g8, g9⟩ :=
      c08_find_samples es hes (fun e he => (hpos e he).1) (startOf (expand es) k) (by omega)
    have hkp2 : PlaysAt (expand es) (startOf (expand es) k) k d := ⟨h4, by omega, by have := hd _ _ h4; omega⟩
    have hkp3 : PlaysAt (expand es) (startOf (expand es) k) k' d' :=
      ⟨g4, g5, by have := hd _ _ g4; omega⟩
    have hkk := playsAt_unique hkp2 hkp3
    subst hkk
    have hdd : d' = d := by rw [h4] at g4; injection g4 with e; exact e.symm
    subst hdd
    simp only [h8, g1]
    rw [if_neg (by omega)]
    refine ⟨k, d', g.exact, by rw [g2, g3], hkp, ?_, ?_⟩
    · by_cases hg : g.exact ≠ m1
      · rw [if_pos hg] at g8; exact Or.inl g8
      · right; unfold m1 at hg; omega
    · intro a b hab hk
      apply g9 a b hab
      rw [hab, hk, expand_append, startOf_append_left _ _ _ (Nat.le_refl _)]
      simp [startOf]

example : NoOverflow [(3, 10), (2, 7)] ∧ (∀ e ∈ [(3, 10), (2, 7)], 0 < e.1 ∧ 0 < e.2) ∧
    mediaTimeToSampleNum [(3, 10), (2, 7)] 33 = .ok (4, 30, some 7) :=
  ⟨⟨by decide, by decide, by decide⟩, by decide, by decide⟩

/-- The decoding time returned is `-1` for a sample inside a run: `MP4MediaTimeToSampleNum` uses
`exactSample` although `findSamples` sets it only at the beginning of a run. -/
theorem c08_api_wrong_time : ∃ (es : List (Nat × Nat)) (t k : Nat), PlaysAt (expand es) t k 10 ∧
    mediaTimeToSampleNum es t = .ok (k + 1, 18446744073709551615, some 10) :=
  ⟨[(3, 10)], 15, 1, ⟨by decide, by decide, by decide⟩, by decide⟩

/-- With a zero-duration sample in front the wrong sample is returned: sample 3 plays at 12. -/
theorem c08_api_zero_duration : ∃ (es : List (Nat × Nat)) (t k : Nat), PlaysAt (expand es) t k 5 ∧
    ∃ dts d, mediaTimeToSampleNum es t = .ok (k, dts, d) :=
  ⟨[(1, 10), (1, 0), (1, 5)], 12, 2, ⟨by decide, by decide, by decide⟩, 10, some 0, by decide⟩

end Verif.Stts
