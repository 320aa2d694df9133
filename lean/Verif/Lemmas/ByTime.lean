import Verif.Lemmas.Stts

/-!
# What `findSamples` finds, besides the sample number (C08)
-/

namespace Verif.Stts

/-- The time is the end of the table: the first sample that starts there, if any, else the number after the last. -/
theorem findLoop_at_end (t : Nat) : ∀ (es : List (Nat × Nat)) (T sn : Nat) (f : Find),
    (∀ e ∈ es, 0 < e.1 ∧ e.1 * e.2 < 4294967296 ∧ e.2 < 4294967296) →
    T + (expand es).sum < 18446744073709551615 →
    sn + (expand es).length < 4294967296 →
    t = T + (expand es).sum →
    (es = [] → f.num = sn ∧ f.exact = t) →
    ∃ r k, findLoop t es T sn f = .ok r ∧ r.num = sn + k ∧ r.exact = t ∧ k ≤ (expand es).length ∧
      T + startOf (expand es) k = t ∧ (k < (expand es).length → r.dur = some 0 ∧ (expand es)[k]? = some 0) ∧
      (∀ j, j < k → T + startOf (expand es) j < t) := by
  intro es
  induction es with
  | nil =>
    intro T sn f _ _ _ ht h0
    obtain ⟨h1, h2⟩ := h0 rfl
    exact ⟨f, 0, rfl, h1, h2, by simp, by simp [ht, startOf], by simp, by simp⟩
  | cons e es ih =>
    obtain ⟨c, d⟩ := e
    intro T sn f hes hsum hcnt htot hf
    obtain ⟨hcpos, hcd, hd32⟩ := hes (c, d) (by simp)
    simp only [] at hcpos hcd hd32
    simp only [expand_cons, List.sum_append, sum_replicate] at hsum htot
    simp only [expand_cons, List.length_append, List.length_replicate] at hcnt
    have hdc : d * c % 4294967296 = c * d := by rw [Nat.mul_comm, Nat.mod_eq_of_lt hcd]
    have hdle : d ≤ c * d := Nat.le_mul_of_pos_left d hcpos
    have hfin : (T + c * d) % 18446744073709551616 = T + c * d := Nat.mod_eq_of_lt (by omega)
    have hTd : (T + d) % 18446744073709551616 = T + d := Nat.mod_eq_of_lt (by omega)
    have hsnc : (sn + c) % 4294967296 = sn + c := Nat.mod_eq_of_lt (by omega)
    have hst : ∀ k, startOf (expand ((c, d) :: es)) (c + k) = c * d + startOf (expand es) k := by
      intro k
      have := startOf_append_right (List.replicate c d) (expand es) k
      simp only [List.length_replicate, sum_replicate] at this
      rw [expand_cons]; exact this
    unfold findLoop
    simp only [hdc, hfin, hTd, hsnc]
    by_cases hEq : T = t
    · rw [if_pos ⟨hEq, by omega⟩]
      have hd : d = 0 := by omega
      subst hd
      refine ⟨_, 0, rfl, rfl, hEq, by omega, by simp [startOf, hEq], fun _ => ⟨rfl, ?_⟩, by simp⟩
      simp [List.getElem?_append_left, hcpos]
    · rw [if_neg (fun h => hEq h.1), if_neg (by omega)]
      simp only [hEq, if_false]
      have rcr : ∀ f' : Find, (es = [] → f'.num = sn + c ∧ f'.exact = t) →
          ∃ r k, findLoop t es (T + c * d) (sn + c) f' = .ok r ∧ r.num = sn + k ∧ r.exact = t ∧
            k ≤ (expand ((c, d) :: es)).length ∧ T + startOf (expand ((c, d) :: es)) k = t ∧
            (k < (expand ((c, d) :: es)).length → r.dur = some 0 ∧ (expand ((c, d) :: es))[k]? = some 0) ∧
            (∀ j, j < k → T + startOf (expand ((c, d) :: es)) j < t) := by
        intro f' hf'
        obtain ⟨r, k, g1, g2, g3, g4, g5, g6, g7⟩ := ih (T + c * d) (sn + c) f'
          (fun e he => hes e (by simp [he])) (by omega) (by omega) (by omega) hf'
        have hl : (expand ((c, d) :: es)).length = c + (expand es).length := by simp
        refine ⟨r, c + k, g1, by omega, g3, by omega, by rw [hst]; omega, ?_, ?_⟩
        · intro hk
          obtain ⟨k1, k2⟩ := g6 (by omega)
          refine ⟨k1, ?_⟩
          rw [expand_cons, List.getElem?_append_right (by simp)]
          simpa using k2
        · intro j hj
          by_cases hjc : j < c
          · rw [expand_cons, startOf_append_left _ _ _ (by simp; omega),
              startOf_replicate _ _ _ (by simp only []; omega)]
            simp only []
            by_cases h0 : d = 0
            · subst h0; simp; omega
            · have : j * d < c * d := Nat.mul_lt_mul_of_pos_right hjc (by omega)
              omega
          · obtain ⟨i, rfl⟩ : ∃ i, j = c + i := ⟨j - c, by omega⟩
            have := g7 i (by omega)
            rw [hst]; omega
      by_cases hf1 : T + c * d < t
      · rw [if_pos hf1]
        refine rcr _ ?_
        intro e; subst e
        simp at htot; omega
      · rw [if_neg hf1, if_pos (by omega)]
        refine rcr _ ?_
        intro e; subst e
        exact ⟨rfl, by simp at htot ⊢; omega⟩

/-- The time is after the end of the table: nothing is found. -/
theorem findLoop_after (t : Nat) : ∀ (es : List (Nat × Nat)) (T sn : Nat) (f : Find),
    (∀ e ∈ es, 0 < e.1 ∧ e.1 * e.2 < 4294967296 ∧ e.2 < 4294967296) →
    T + (expand es).sum < 18446744073709551615 → T + (expand es).sum < t →
    ∃ r, findLoop t es T sn f = .ok r ∧ r.num = f.num := by
  intro es
  induction es with
  | nil => intro T sn f _ _ _; exact ⟨f, rfl, rfl⟩
  | cons e es ih =>
    obtain ⟨c, d⟩ := e
    intro T sn f hes hsum htot
    obtain ⟨hcpos, hcd, hd32⟩ := hes (c, d) (by simp)
    simp only [] at hcpos hcd hd32
    simp only [expand_cons, List.sum_append, sum_replicate] at hsum htot
    have hdc : d * c % 4294967296 = c * d := by rw [Nat.mul_comm, Nat.mod_eq_of_lt hcd]
    have hfin : (T + c * d) % 18446744073709551616 = T + c * d := Nat.mod_eq_of_lt (by omega)
    unfold findLoop
    simp only [hdc, hfin]
    rw [if_neg (by omega), if_neg (by omega)]
    simp only [show ¬ (T = t) by omega, if_false]
    rw [if_pos (by omega)]
    obtain ⟨r, g1, g2⟩ := ih (T + c * d) ((sn + c) % 4294967296) { f with prior := T + c * d }
      (fun e he => hes e (by simp [he])) (by omega) (by omega)
    exact ⟨r, g1, g2⟩

/-- The three times, for a time inside the run `(c, d)`. -/
theorem findLoop_run (t c d : Nat) (b : List (Nat × Nat)) : ∀ (a : List (Nat × Nat)) (T sn : Nat) (f : Find),
    (∀ e ∈ a ++ (c, d) :: b, 0 < e.1 ∧ 0 < e.2 ∧ e.1 * e.2 < 4294967296 ∧ e.2 < 4294967296) →
    T + (expand (a ++ (c, d) :: b)).sum < 18446744073709551615 →
    T + (expand a).sum ≤ t → t < T + (expand a).sum + c * d →
    (T < t → f.found = false ∧ f.exact = m1) →
    ∃ r, findLoop t (a ++ (c, d) :: b) T sn f = .ok r ∧
      (t = T + (expand a).sum → r.exact = t ∧ r.next = t + d ∧
        r.prior = match a.getLast? with | none => f.prior | some e => t - e.2) ∧
      (t ≠ T + (expand a).sum → r.exact = m1 ∧
        r.prior = T + (expand a).sum + (t - (T + (expand a).sum)) / d * d ∧ r.next = r.prior + d) := by
  intro a
  induction a with
  | nil =>
    intro T sn f hes hsum hT htot hf
    obtain ⟨hcpos, hdpos, hcd, hd32⟩ := hes (c, d) (by simp)
    simp only [] at hcpos hdpos hcd hd32
    simp only [List.nil_append, expand_cons, List.sum_append, sum_replicate] at hsum
    simp only [expand_nil, List.sum_nil, Nat.add_zero] at hT htot ⊢
    have hdc : d * c % 4294967296 = c * d := by rw [Nat.mul_comm, Nat.mod_eq_of_lt hcd]
    have hdle : d ≤ c * d := Nat.le_mul_of_pos_left d hcpos
    have hfin : (T + c * d) % 18446744073709551616 = T + c * d := Nat.mod_eq_of_lt (by omega)
    have hTd : (T + d) % 18446744073709551616 = T + d := Nat.mod_eq_of_lt (by omega)
    rw [List.nil_append]
    unfold findLoop
    simp only [hdc, hfin, hTd]
    by_cases hEq : T = t
    · rw [if_pos ⟨hEq, by omega⟩]
      exact ⟨_, rfl, fun _ => ⟨hEq, by rw [hEq], rfl⟩, fun h => absurd hEq.symm h⟩
    · obtain ⟨hnf, hex⟩ := hf (by omega)
      rw [if_neg (fun h => hEq h.1), if_neg (by omega)]
      simp only [hEq, if_false]
      rw [if_neg (by omega), if_neg (by omega), if_neg (by omega)]
      have hq : (t - T) / d < c := by
        rw [Nat.div_lt_iff_lt_mul hdpos]; omega
      generalize (t - T) / d = q at *
      have hqc : q * d + d ≤ c * d := by
        have : (q + 1) * d ≤ c * d := Nat.mul_le_mul_right d (by omega)
        rwa [Nat.succ_mul] at this
      have hc32 : c < 4294967296 := by
        have := Nat.le_mul_of_pos_right c hdpos
        omega
      rw [Nat.mod_eq_of_lt (show q < 4294967296 by omega),
        Nat.mod_eq_of_lt (show q * d < 4294967296 by omega),
        Nat.mod_eq_of_lt (show T + q * d < 18446744073709551616 by omega),
        Nat.mod_eq_of_lt (show T + q * d + d < 18446744073709551616 by omega)]
      simp only [hnf, Bool.false_eq_true, if_false]
      rw [if_pos (by omega)]
      exact ⟨_, rfl, fun h => absurd h.symm hEq, fun _ => ⟨hex, rfl, rfl⟩⟩
  | cons e a ih =>
    obtain ⟨c0, d0⟩ := e
    intro T sn f hes hsum hT htot hf
    obtain ⟨hcpos, hdpos, hcd, hd32⟩ := hes (c0, d0) (by simp)
    simp only [] at hcpos hdpos hcd hd32
    simp only [List.cons_append, expand_cons, List.sum_append, sum_replicate] at hsum hT htot
    have hdc : d0 * c0 % 4294967296 = c0 * d0 := by rw [Nat.mul_comm, Nat.mod_eq_of_lt hcd]
    have hdle : d0 ≤ c0 * d0 := Nat.le_mul_of_pos_left d0 hcpos
    have hfin : (T + c0 * d0) % 18446744073709551616 = T + c0 * d0 := Nat.mod_eq_of_lt (by omega)
    have hE : T + (expand ((c0, d0) :: a)).sum = T + c0 * d0 + (expand a).sum := by
      simp only [expand_cons, List.sum_append, sum_replicate]; omega
    obtain ⟨hnf, hex⟩ := hf (by omega)
    rw [List.cons_append]
    unfold findLoop
    simp only [hdc, hfin]
    rw [if_neg (by omega), if_neg (by omega)]
    simp only [show ¬ (T = t) by omega, if_false]
    rw [hE]
    by_cases hf1 : T + c0 * d0 < t
    · rw [if_pos hf1]
      obtain ⟨r, g1, g2, g3⟩ := ih (T + c0 * d0) ((sn + c0) % 4294967296) { f with prior := T + c0 * d0 }
        (fun e he => hes e (List.mem_cons_of_mem _ he)) (by omega) (by omega) (by omega)
        (fun _ => ⟨hnf, hex⟩)
      refine ⟨r, g1, ?_, g3⟩
      intro h
      obtain ⟨k1, k2, k3⟩ := g2 h
      refine ⟨k1, k2, ?_⟩
      rw [k3]
      cases a with
      | nil => simp at h; omega
      | cons x a =>
        rw [List.getLast?_cons_cons, List.getLast?_eq_some_getLast (by simp)]
    · rw [if_neg hf1, if_pos (by omega)]
      have ha : (expand a).sum = 0 := by omega
      have ha : a = [] := by
        cases a with
        | nil => rfl
        | cons x a =>
          obtain ⟨x1, x2, -⟩ := hes x (by simp)
          have := Nat.mul_pos x1 x2
          simp only [expand_cons, List.sum_append, sum_replicate] at ha
          omega
      subst ha
      obtain ⟨r, g1, g2, g3⟩ := ih (T + c0 * d0) ((sn + c0) % 4294967296) { f with
          prior := (T + c0 * d0 + 18446744073709551616 - d0) % 18446744073709551616, exact := T + c0 * d0,
          num := (sn + c0) % 4294967296, dur := some d0, found := true }
        (fun e he => hes e (List.mem_cons_of_mem _ he)) (by omega) (by omega) (by omega)
        (fun h => by omega)
      refine ⟨r, g1, ?_, g3⟩
      intro h
      obtain ⟨k1, k2, k3⟩ := g2 h
      refine ⟨k1, k2, ?_⟩
      rw [k3]
      simp only [List.getLast?_nil, List.getLast?_singleton]
      simp at h
      omega

/-- Every time below the total is inside a run. -/
theorem run_of_time : ∀ (es : List (Nat × Nat)) (t : Nat), t < (expand es).sum →
    ∃ a c d b, es = a ++ (c, d) :: b ∧ (expand a).sum ≤ t ∧ t < (expand a).sum + c * d
  | [], t, h => by simp at h
  | (c, d) :: es, t, h => by
    simp only [expand_cons, List.sum_append, sum_replicate] at h
    by_cases h1 : t < c * d
    · exact ⟨[], c, d, es, rfl, by simp, by simpa using h1⟩
    · obtain ⟨a, c', d', b, e, g1, g2⟩ := run_of_time es (t - c * d) (by omega)
      refine ⟨(c, d) :: a, c', d', b, by rw [e]; rfl, ?_, ?_⟩ <;>
        simp only [expand_cons, List.sum_append, sum_replicate] <;> omega

/-- The three times, in terms of the samples: `k` is the sample playing at `t`. -/
theorem find_times {es : List (Nat × Nat)} (hes : NoOverflow es) (hr : Runs es) (hpos : ∀ e ∈ es, 0 < e.2)
    {t : Nat} (ht : t < (expand es).sum) :
    ∃ r k d, findSamples es t = .ok r ∧ (expand es)[k]? = some d ∧ startOf (expand es) k ≤ t ∧
      t < startOf (expand es) (k + 1) ∧ r.next = startOf (expand es) (k + 1) ∧
      (startOf (expand es) k = t → (k = 0 ∨ (expand es)[k - 1]? ≠ some d) →
        r.exact = t ∧ r.prior = if k = 0 then m1 else startOf (expand es) (k - 1)) ∧
      ((startOf (expand es) k ≠ t ∨ (k ≠ 0 ∧ (expand es)[k - 1]? = some d)) →
        r.exact = m1 ∧ r.prior = startOf (expand es) k) := by
  have hsum : (expand es).sum < 18446744073709551615 := by
    have : (expand es).sum ≤ (expand es).length * 4294967295 := by
      apply sum_lt_of_lt
      intro x hx
      obtain ⟨c, hc⟩ := mem_expand hx
      have := hes.dur _ hc
      simp only [] at this
      omega
    have := hes.count
    omega
  obtain ⟨a, c, d, b, rfl, h1, h2⟩ := run_of_time es t ht
  obtain ⟨r, g1, g2, g3⟩ := findLoop_run t c d b a 0 1 ⟨m1, m1, m1, 0, none, false⟩
    (fun e he => ⟨hr.1 e he, hpos e he, hes.run e he, hes.dur e he⟩) (by omega) (by omega) (by omega) (by simp)
  rw [Nat.zero_add] at g2 g3
  have hd := hpos (c, d) (by simp)
  simp only [] at hd
  have hx : expand (a ++ (c, d) :: b) = expand a ++ (List.replicate c d ++ expand b) := by simp
  rw [hx]
  have hst : ∀ j, j ≤ c → startOf (expand a ++ (List.replicate c d ++ expand b)) ((expand a).length + j) =
      (expand a).sum + j * d := by
    intro j hj
    rw [startOf_append_right, startOf_append_left _ _ _ (by simpa using hj), startOf_replicate _ _ _ hj]
  have hget : ∀ j, j < c → (expand a ++ (List.replicate c d ++ expand b))[(expand a).length + j]? = some d := by
    intro j hj
    rw [List.getElem?_append_right (by omega), List.getElem?_append_left (by simp; omega)]
    simp [hj]
  have hq : (t - (expand a).sum) / d < c := by
    rw [Nat.div_lt_iff_lt_mul hd]; omega
  have hqd : (t - (expand a).sum) / d * d ≤ t - (expand a).sum := Nat.div_mul_le_self _ _
  have hqd2 : t - (expand a).sum < (t - (expand a).sum) / d * d + d := by
    have := Nat.lt_div_mul_add (a := t - (expand a).sum) hd
    omega
  have hq0 : t = (expand a).sum ↔ (t - (expand a).sum) / d = 0 ∧ (expand a).sum + (t - (expand a).sum) / d * d = t := by
    constructor
    · intro h; rw [h]; simp
    · intro ⟨h1, h2⟩; rw [h1] at h2; omega
  generalize (t - (expand a).sum) / d = q at *
  refine ⟨r, (expand a).length + q, d, g1, hget q hq, ?_, ?_, ?_, ?_, ?_⟩
  · rw [hst q (by omega)]; omega
  · rw [Nat.add_assoc, hst (q + 1) (by omega), Nat.succ_mul]; omega
  · rw [Nat.add_assoc, hst (q + 1) (by omega), Nat.succ_mul]
    by_cases h : t = (expand a).sum
    · rw [(g2 h).2.1, (hq0.mp h).1]; omega
    · rw [(g3 h).2.2, (g3 h).2.1]; omega
  · intro e1 e2
    rw [hst q (by omega)] at e1
    have hq' : q = 0 := by
      by_cases hq0 : q = 0
      · exact hq0
      · rcases e2 with e2 | e2
        · omega
        · exfalso; apply e2
          have := hget (q - 1) (by omega)
          rwa [show (expand a).length + (q - 1) = (expand a).length + q - 1 by omega] at this
    subst hq'
    obtain ⟨k1, k2, k3⟩ := g2 (by omega)
    refine ⟨k1, ?_⟩
    rw [k3]
    cases hl : a.getLast? with
    | none =>
      rw [List.getLast?_eq_none_iff] at hl
      subst hl; simp
    | some x =>
      obtain ⟨a', rfl⟩ : ∃ a', a = a' ++ [x] := ⟨_, getLast?_eq_some_iff_append hl⟩
      have hx1 := hr.1 x (by simp)
      have hlen : (expand (a' ++ [x])).length = (expand a').length + x.1 := by simp
      have hsm : (expand (a' ++ [x])).sum = (expand a').sum + x.1 * x.2 := by simp
      rw [if_neg (by omega), startOf_append_left _ _ _ (by omega), hlen,
        show (expand a').length + x.1 + 0 - 1 = (expand a').length + (x.1 - 1) by omega]
      rw [expand_append, startOf_append_right]
      have : startOf (expand [x]) (x.1 - 1) = (x.1 - 1) * x.2 := by
        rw [expand_cons, expand_nil, List.append_nil, startOf_replicate _ _ _ (by omega)]
      rw [this]
      have : x.1 * x.2 = (x.1 - 1) * x.2 + x.2 := by
        conv => lhs; rw [show x.1 = (x.1 - 1) + 1 by omega, Nat.succ_mul]
      dsimp only
      omega
  · intro e
    rw [hst q (by omega)] at e ⊢
    have hne : t ≠ (expand a).sum := by
      intro ht
      obtain ⟨z1, z2⟩ := hq0.mp ht
      subst z1
      rcases e with e | ⟨e1, e2⟩
      · exact e z2
      · cases hl : a.getLast? with
        | none =>
          rw [List.getLast?_eq_none_iff] at hl
          subst hl; simp at e1
        | some x =>
          obtain ⟨a', rfl⟩ : ∃ a', a = a' ++ [x] := ⟨_, getLast?_eq_some_iff_append hl⟩
          have hx1 := hr.1 x (by simp)
          have hlen : (expand (a' ++ [x])).length = (expand a').length + x.1 := by simp
          rw [List.getElem?_append_left (by omega), hlen, expand_append,
            List.getElem?_append_right (by omega)] at e2
          have hxd : x.2 = d := by
            have := List.mem_of_getElem? e2
            rw [expand_cons, expand_nil, List.append_nil] at this
            exact (List.eq_of_mem_replicate this).symm
          exact hr.2 a'.length x (c, d) (by simp) (by simp) hxd
    exact ⟨(g3 hne).1, (g3 hne).2.1⟩

end Verif.Stts
