import Verif.Model.Stts
import Verif.Lemmas.Rle
import Verif.Lemmas.Box

namespace Verif.Stts

/-- No 32-bit overflow: fewer than `2^32 - 1` samples, 32-bit durations, and no run longer than
`2^32 - 1` time units. -/
structure NoOverflow (es : List (Nat × Nat)) : Prop where
  count : (expand es).length + 1 < 4294967296
  dur : ∀ e ∈ es, e.2 < 4294967296
  run : ∀ e ∈ es, e.1 * e.2 < 4294967296

theorem NoOverflow.sum_lt {es : List (Nat × Nat)} (h : NoOverflow es) :
    (expand es).sum < 18446744073709551616 := by
  have : (expand es).sum ≤ (expand es).length * 4294967295 := by
    apply sum_lt_of_lt
    intro x hx
    obtain ⟨c, hc⟩ := mem_expand hx
    have := h.dur _ hc
    simp only [] at this
    omega
  have := h.count
  omega

theorem scan_spec (n : Nat) : ∀ (rest : List (Nat × Nat)) (P : List Nat) (s : Scan),
    (P ++ expand rest).length + 1 < 4294967296 →
    (P ++ expand rest).sum < 18446744073709551616 →
    (∀ e ∈ rest, e.1 * e.2 < 4294967296) →
    s.time = P.sum → s.sample = 1 + P.length →
    (∃ a b, rest = a ++ b ∧ (scan n rest s).time = (P ++ expand a).sum ∧
      (scan n rest s).sample = 1 + (P ++ expand a).length ∧
      (scan n rest s).num = s.num + a.length) ∧
    (P.length < n → n ≤ (P ++ expand rest).length →
      (scan n rest s).cts = startOf (P ++ expand rest) (n - 1) ∧
      (P ++ expand rest)[n - 1]? = some (scan n rest s).dur) := by
  intro rest
  induction rest with
  | nil =>
    intro P s _ _ _ ht hs
    refine ⟨⟨[], [], rfl, ?_⟩, ?_⟩
    · simp [scan, ht, hs]
    · intro h1 h2; simp at h2; omega
  | cons e es ih =>
    obtain ⟨c, d⟩ := e
    intro P s hc hsum hrun ht hs
    have hcd : c * d < 4294967296 := hrun (c, d) (by simp)
    have hc' := hc
    have hsum' := hsum
    simp only [expand_cons, List.length_append, List.length_replicate] at hc'
    simp only [expand_cons, List.sum_append, sum_replicate] at hsum'
    unfold scan
    have e1 : (s.sample + c) % 4294967296 = 1 + P.length + c := by
      rw [hs, Nat.mod_eq_of_lt (by omega)]
    rw [e1]
    by_cases hgt : 1 + P.length + c > n
    · rw [if_pos hgt]
      refine ⟨⟨[], (c, d) :: es, rfl, by simp [ht], by simp [hs], by simp⟩, ?_⟩
      intro h1 h2
      have e2 : (n + 4294967296 - s.sample) % 4294967296 = n - 1 - P.length := by
        rw [hs]; omega
      have e3 : (n - 1 - P.length) * d < 4294967296 := by
        have : (n - 1 - P.length) * d ≤ c * d := Nat.mul_le_mul_right d (by omega)
        omega
      have e4 : (n - 1 - P.length) * d ≤ c * d := Nat.mul_le_mul_right d (by omega)
      obtain ⟨k, hk⟩ : ∃ k, n - 1 = P.length + k := ⟨n - 1 - P.length, by omega⟩
      have hkc : k < c := by omega
      constructor
      · simp only [e2, Nat.mod_eq_of_lt e3, ht]
        rw [Nat.mod_eq_of_lt (by omega), hk, startOf_append_right, expand_cons,
          startOf_append_left _ _ _ (by simp; omega), startOf_replicate _ _ _ (by simp only []; omega)]
        congr 2; omega
      · rw [hk, List.getElem?_append_right (by omega), expand_cons,
          List.getElem?_append_left (by simp; omega)]
        simp [hkc]
    · rw [if_neg hgt]
      have e5 : (P.sum + c * d) % 18446744073709551616 = P.sum + c * d := Nat.mod_eq_of_lt (by omega)
      have hih := ih (P ++ List.replicate c d)
        { s with sample := 1 + P.length + c, time := w64(s.time + w32(c * d)), num := s.num + 1 }
        (by simpa [Nat.add_assoc] using hc) (by simpa [Nat.add_assoc] using hsum)
        (fun e he => hrun e (by simp [he]))
        (by simp only [Nat.mod_eq_of_lt hcd, ht, e5, List.sum_append, sum_replicate])
        (by simp; omega)
      obtain ⟨⟨a, b, hab, h1, h2, h3⟩, h4⟩ := hih
      refine ⟨⟨(c, d) :: a, b, by simp [hab], ?_, ?_, ?_⟩, ?_⟩
      · rw [h1]; simp [Nat.add_assoc]
      · rw [h2]; simp [Nat.add_assoc]
      · rw [h3]; simp; omega
      · intro g1 g2
        have := h4 (by simp; omega) (by simpa [Nat.add_assoc] using g2)
        simpa using this

/-- What the cache must satisfy for queries to be right. -/
def CacheOK (t : Stts) : Prop :=
  t.found = true → t.foundNum ≤ t.entries.length ∧
    t.foundTime = (expand (t.entries.take t.foundNum)).sum ∧
    t.foundSample = 1 + (expand (t.entries.take t.foundNum)).length

theorem getTime_entries (t : Stts) (n : Nat) : (getTime t n).2.entries = t.entries := rfl

theorem getTime_spec {t : Stts} (h : NoOverflow t.entries) (hc : CacheOK t) (n : Nat) :
    CacheOK (getTime t n).2 ∧
    (1 ≤ n → n ≤ (expand t.entries).length →
      (getTime t n).1.1 = startOf (expand t.entries) (n - 1) ∧
      (expand t.entries)[n - 1]? = some (getTime t n).1.2) := by
  -- the starting point of the scan
  have key : ∀ s0 : Scan, s0.num ≤ t.entries.length →
      s0.time = (expand (t.entries.take s0.num)).sum →
      s0.sample = 1 + (expand (t.entries.take s0.num)).length → 
      (expand (t.entries.take s0.num)).length < n ∨ n = 0 →
      (∃ a b, t.entries.drop s0.num = a ++ b ∧
        (scan n (t.entries.drop s0.num) s0).time = (expand (t.entries.take s0.num) ++ expand a).sum ∧
        (scan n (t.entries.drop s0.num) s0).sample = 1 + (expand (t.entries.take s0.num) ++ expand a).length ∧
        (scan n (t.entries.drop s0.num) s0).num = s0.num + a.length) ∧
      (1 ≤ n → n ≤ (expand t.entries).length →
        (scan n (t.entries.drop s0.num) s0).cts = startOf (expand t.entries) (n - 1) ∧
        (expand t.entries)[n - 1]? = some (scan n (t.entries.drop s0.num) s0).dur) := by
    intro s0 h1 h2 h3 h4
    have e : expand (t.entries.take s0.num) ++ expand (t.entries.drop s0.num) = expand t.entries := by
      rw [← expand_append, List.take_append_drop]
    have := scan_spec n (t.entries.drop s0.num) (expand (t.entries.take s0.num)) s0
      (by rw [e]; exact h.count) (by rw [e]; exact h.sum_lt)
      (fun x hx => h.run x (List.mem_of_mem_drop hx)) h2 h3
    refine ⟨this.1, fun g1 g2 => ?_⟩
    have := this.2 (by omega) (by rw [e]; exact g2)
    rwa [e] at this
  have fin : ∀ s0 : Scan, s0.num ≤ t.entries.length →
      (∃ a b, t.entries.drop s0.num = a ++ b ∧
        (scan n (t.entries.drop s0.num) s0).time = (expand (t.entries.take s0.num) ++ expand a).sum ∧
        (scan n (t.entries.drop s0.num) s0).sample = 1 + (expand (t.entries.take s0.num) ++ expand a).length ∧
        (scan n (t.entries.drop s0.num) s0).num = s0.num + a.length) →
      (scan n (t.entries.drop s0.num) s0).num ≤ t.entries.length ∧
      (scan n (t.entries.drop s0.num) s0).time =
        (expand (t.entries.take (scan n (t.entries.drop s0.num) s0).num)).sum ∧
      (scan n (t.entries.drop s0.num) s0).sample =
        1 + (expand (t.entries.take (scan n (t.entries.drop s0.num) s0).num)).length := by
    intro s0 h1 ⟨a, b, hab, g1, g2, g3⟩
    have htk : t.entries.take (s0.num + a.length) = t.entries.take s0.num ++ a := by
      rw [List.take_add, hab]; simp
    have hl : s0.num + a.length ≤ t.entries.length := by
      have : (t.entries.drop s0.num).length = a.length + b.length := by rw [hab]; simp
      simp at this; omega
    rw [g3, htk, expand_append, g1, g2]
    exact ⟨hl, rfl, rfl⟩
  unfold getTime
  by_cases hf : t.found = true ∧ t.foundSample < n
  · obtain ⟨c1, c2, c3⟩ := hc hf.1
    have k := key ⟨18446744073709551615, 0, t.foundTime, t.foundSample, t.foundNum⟩ c1 c2 c3
      (by left; rw [c3] at hf; simp only []; omega)
    have f := fin _ c1 k.1
    simp only [if_pos hf]
    exact ⟨fun _ => f, k.2⟩
  · have k := key ⟨18446744073709551615, 0, 0, 1, 0⟩ (by simp) (by simp) (by simp)
      (by simp only [List.take_zero, expand_nil, List.length_nil]; omega)
    have f := fin _ (by simp) k.1
    simp only [if_neg hf]
    exact ⟨fun _ => f, k.2⟩

/-! ## Adding -/

theorem expand_addSample {es : List (Nat × Nat)} (h : (expand es).length + 1 < 4294967296) (d : Nat) :
    expand (addSample es d) = expand es ++ [d] := by
  unfold addSample
  cases hl : es.getLast? with
  | none => simp
  | some p =>
    obtain ⟨c, d'⟩ := p
    have he := getLast?_eq_some_iff_append hl
    simp only []
    split
    · simp
    · next hne =>
      have : d' = d := by omega
      subst this
      have hcl : c ≤ (expand es).length := by
        rw [he, expand_append]; simp
      rw [Nat.mod_eq_of_lt (by omega)]
      conv => rhs; rw [he]
      simp [List.replicate_succ']

/-- Durations a batch gives to its samples: one value for all, or one per sample. -/
def batchDurations (n : Nat) (durations : List Nat) : List Nat :=
  if durations.length = 1 then List.replicate n (durations.headD 0) else durations.take n

theorem addLoop_ok (durations : List Nat) (has : Bool) : ∀ (n i : Nat) (es : List (Nat × Nat)),
    (has = true → i + n ≤ durations.length) → (has = false → n ≠ 0 → durations ≠ []) →
    (expand es).length + n < 4294967296 →
    ∃ es', addLoop durations has n i es = .ok es' ∧
      es' = (if has then (durations.drop i).take n else List.replicate n (durations.headD 0)).foldl addSample es ∧
      expand es' = expand es ++
        (if has then (durations.drop i).take n else List.replicate n (durations.headD 0)) := by
  intro n
  induction n with
  | zero => intro i es _ _ _; refine ⟨es, rfl, ?_, ?_⟩ <;> cases has <;> simp
  | succ n ih =>
    intro i es h1 h2 h3
    unfold addLoop
    cases has with
    | true =>
      have hi : i < durations.length := by have := h1 rfl; omega
      simp only [if_true, List.getElem?_eq_getElem hi]
      obtain ⟨es', g1, g2, g3⟩ := ih (i + 1) (addSample es durations[i]) (fun _ => by have := h1 rfl; omega)
        (by simp) (by rw [expand_addSample (by omega)]; simp; omega)
      refine ⟨es', g1, ?_, ?_⟩
      · rw [g2]; simp only [if_true]; rw [List.drop_eq_getElem_cons hi]; rfl
      · rw [g3, expand_addSample (by omega)]; simp only [if_true]; rw [List.drop_eq_getElem_cons hi]
        simp [List.take_succ_cons, -List.getElem_cons_drop]
    | false =>
      have hne := h2 rfl (by omega)
      obtain ⟨x, xs, hx⟩ := List.exists_cons_of_ne_nil hne
      subst hx
      simp only [Bool.false_eq_true, if_false, List.getElem?_cons_zero]
      obtain ⟨es', g1, g2, g3⟩ := ih (i + 1) (addSample es x) (by simp)
        (by simp) (by rw [expand_addSample (by omega)]; simp; omega)
      refine ⟨es', g1, ?_, ?_⟩
      · rw [g2]; simp [List.replicate_succ]
      · rw [g3, expand_addSample (by omega)]; simp [List.replicate_succ]

theorem addSamples_ok {es : List (Nat × Nat)} {n : Nat} {durations : List Nat}
    (h1 : durations.length = 1 ∨ n ≤ durations.length ∧ durations ≠ [])
    (h2 : (expand es).length + n < 4294967296) :
    ∃ es', addSamples es n durations = .ok es' ∧
      es' = (batchDurations n durations).foldl addSample es ∧
      expand es' = expand es ++ batchDurations n durations := by
  unfold addSamples
  have hb : (if decide (durations.length * 4 > 4) then (durations.drop 0).take n
      else List.replicate n (durations.headD 0)) = batchDurations n durations := by
    unfold batchDurations
    rcases h1 with h1 | ⟨h1, h3⟩
    · simp [h1]
    · have := List.length_pos_iff.mpr h3
      by_cases hl : durations.length = 1
      · simp [hl]
      · have : durations.length * 4 > 4 := by omega
        simp [hl, this]
  have := addLoop_ok durations (decide (durations.length * 4 > 4)) n 0 es
    (by intro h; simp at h; rcases h1 with h1 | h1 <;> omega)
    (by intro _ _ e; subst e; rcases h1 with h1 | h1 <;> simp at h1)
    h2
  rwa [hb] at this

/-- Every run is non-empty and adjacent runs have different values. -/
def Runs (es : List (Nat × Nat)) : Prop :=
  (∀ e ∈ es, 0 < e.1) ∧ ∀ (i : Nat) (a b : Nat × Nat), es[i]? = some a → es[i + 1]? = some b → a.2 ≠ b.2

theorem runs_addSample {es : List (Nat × Nat)} (hr : Runs es)
    (hc : (expand es).length + 1 < 4294967296) (d : Nat) : Runs (addSample es d) := by
  have snoc : ∀ (l : List (Nat × Nat)) (x : Nat × Nat), 0 < x.1 → Runs l →
      (∀ a, l.getLast? = some a → a.2 ≠ x.2) → Runs (l ++ [x]) := by
    intro l x hx hl hlast
    refine ⟨?_, ?_⟩
    · intro e he
      rcases List.mem_append.mp he with h | h
      · exact hl.1 e h
      · simp at h; rw [h]; exact hx
    · intro i a b ha hb
      have hbl : i + 1 < (l ++ [x]).length := (List.getElem?_eq_some_iff.mp hb).1
      simp at hbl
      rw [List.getElem?_append_left (by omega)] at ha
      by_cases hi : i + 1 < l.length
      · rw [List.getElem?_append_left hi] at hb
        exact hl.2 i a b ha hb
      · have : i + 1 = l.length := by omega
        rw [List.getElem?_append_right (by omega)] at hb
        simp [this] at hb
        subst hb
        apply hlast
        rw [List.getLast?_eq_getElem?, ← this]
        simpa using ha
  unfold addSample
  cases hl : es.getLast? with
  | none => exact snoc es _ (by simp) hr (by simp [hl])
  | some p =>
    obtain ⟨c, d'⟩ := p
    simp only []
    split
    · next hne => exact snoc es _ (by simp) hr (by intro a ha; rw [hl] at ha; injection ha with ha; subst ha; exact hne)
    · next hne =>
      have he := getLast?_eq_some_iff_append hl
      have hcl : c ≤ (expand es).length := by rw [he, expand_append]; simp
      have hlen : es.length = es.dropLast.length + 1 := by
        have := congrArg List.length he; simpa using this
      have hdrop : ∀ (i : Nat) x, es.dropLast[i]? = some x → es[i]? = some x := by
        intro i x hx
        rw [he, List.getElem?_append_left (List.getElem?_eq_some_iff.mp hx).1]; exact hx
      apply snoc
      · simp only []; omega
      · refine ⟨fun e hm => hr.1 e (by rw [he]; simp [hm]), ?_⟩
        intro i a b ha hb
        exact hr.2 i a b (hdrop _ _ ha) (hdrop _ _ hb)
      · intro a ha
        rw [List.getLast?_eq_getElem?] at ha
        have h1 := hdrop _ _ ha
        have hpos : es.dropLast.length - 1 < es.dropLast.length := (List.getElem?_eq_some_iff.mp ha).1
        have h2 : es[es.dropLast.length - 1 + 1]? = some (c, d') := by
          have : es.dropLast.length - 1 + 1 = es.length - 1 := by omega
          rw [this, ← List.getLast?_eq_getElem?]; exact hl
        exact hr.2 _ a (c, d') h1 h2

theorem totalDuration_eq (es : List (Nat × Nat)) :
    totalDuration es = (expand es).sum % 4294967296 := by
  have gen : ∀ (es : List (Nat × Nat)) (t : Nat), t < 4294967296 →
      es.foldl (fun t e => w32(t + w32(e.1 * e.2))) t = (t + (expand es).sum) % 4294967296 := by
    intro es
    induction es with
    | nil => intro t ht; simp [Nat.mod_eq_of_lt ht]
    | cons e es ih =>
      intro t ht
      rw [List.foldl_cons, ih _ (Nat.mod_lt _ (by omega))]
      simp only [expand_cons, List.sum_append, sum_replicate]
      omega
  have := gen es 0 (by omega)
  simpa [totalDuration] using this

/-- Add `delta` to the last element, in 32 bits. -/
theorem expand_extendLast {es : List (Nat × Nat)} {delta : Nat} {d : Nat}
    (hp : ∀ e ∈ es, 0 < e.1)
    (hc : (expand es).length + 1 < 4294967296) (hl : (expand es).getLast? = some d) :
    ∃ es', extendLast es delta = .ok es' ∧
      expand es' = (expand es).dropLast ++ [w32(d + delta)] := by
  cases he : es.getLast? with
  | none =>
    rw [List.getLast?_eq_none_iff] at he
    subst he; simp at hl
  | some p =>
    obtain ⟨c, d'⟩ := p
    have hee := getLast?_eq_some_iff_append he
    have hcpos : 0 < c := hp (c, d') (by rw [hee]; simp)
    have hx : expand es = expand es.dropLast ++ List.replicate (c - 1) d' ++ [d'] := by
      conv => lhs; rw [hee]
      simp only [expand_append, expand_cons, expand_nil, List.append_nil]
      rw [show c = c - 1 + 1 by omega, List.replicate_succ']
      simp
    have hd : d' = d := by
      rw [hx] at hl; simpa using hl
    subst hd
    unfold extendLast
    simp only [he]
    by_cases h1 : c = 1
    · rw [if_pos h1]
      subst h1
      refine ⟨_, rfl, ?_⟩
      rw [hx]; simp
    · rw [if_neg h1]
      have hlen : (expand es).length = (expand es.dropLast).length + (c - 1) + 1 := by
        rw [hx]; simp; omega
      have hcc : (c + 4294967295) % 4294967296 = c - 1 := by omega
      refine ⟨_, rfl, ?_⟩
      rw [hcc, expand_addSample (by simp; omega), hx]
      simp

/-! ## Finding the sample at a time -/

theorem findLoop_spec (t : Nat) (ht : t < m1) : ∀ (es : List (Nat × Nat)) (T sn : Nat) (f : Find),
    (∀ e ∈ es, 0 < e.1 ∧ e.1 * e.2 < 4294967296 ∧ e.2 < 4294967296) →
    T + (expand es).sum < 18446744073709551615 →
    sn + (expand es).length < 4294967296 →
    T ≤ t → t < T + (expand es).sum →
    (f.found = true → T = t) →
    (T < t → f.exact = m1) →
    ∃ r k d, findLoop t es T sn f = .ok r ∧ r.num = sn + k ∧ r.dur = some d ∧
      (expand es)[k]? = some d ∧
      T + startOf (expand es) k ≤ t ∧
      (t < T + startOf (expand es) k + d ∨ T + startOf (expand es) k = t) ∧
      (∀ j d', j < k → (expand es)[j]? = some d' →
        T + startOf (expand es) j + d' ≤ t ∧ T + startOf (expand es) j < t) ∧
      (r.exact = T + startOf (expand es) k ∨
        (r.exact = m1 ∧ r.prior = T + startOf (expand es) k)) ∧
      (∀ a b, es = a ++ b → T + (expand a).sum = t → r.exact = t) := by
  intro es
  induction es with
  | nil => intro T sn f _ _ _ h1 h2; simp at h2; omega
  | cons e es ih =>
    obtain ⟨c, d⟩ := e
    intro T sn f hes hsum hcnt hT htot hfound hexact
    obtain ⟨hcpos, hcd, hd32⟩ := hes (c, d) (by simp)
    simp only [] at hcpos hcd hd32
    simp only [expand_cons, List.sum_append, sum_replicate] at hsum htot
    simp only [expand_cons, List.length_append, List.length_replicate] at hcnt
    have hdc : d * c % 4294967296 = c * d := by rw [Nat.mul_comm, Nat.mod_eq_of_lt hcd]
    have hdle : d ≤ c * d := Nat.le_mul_of_pos_left d hcpos
    have hfin : (T + c * d) % 18446744073709551616 = T + c * d := Nat.mod_eq_of_lt (by omega)
    have hTd : (T + d) % 18446744073709551616 = T + d := Nat.mod_eq_of_lt (by omega)
    have hsnc : (sn + c) % 4294967296 = sn + c := Nat.mod_eq_of_lt (by omega)
    unfold findLoop
    simp only [hdc, hfin, hTd, hsnc]
    by_cases hEq : T = t
    · have hbr : T = t ∧ T + d ≤ T + c * d := ⟨hEq, by omega⟩
      rw [if_pos hbr]
      refine ⟨_, 0, d, rfl, rfl, rfl, ?_, ?_, ?_, ?_, ?_, ?_⟩
      · simp [List.getElem?_append_left, hcpos]
      · simp [startOf, hEq]
      · right; simp [startOf, hEq]
      · intro j d' hj; omega
      · left; simp [startOf]
      · intro a b _ _; exact hEq
    · have hlt : T < t := by omega
      have hnb : ¬ (T = t ∧ T + d ≤ T + c * d) := fun h => hEq h.1
      have hng : ¬ (T > t) := by omega
      have hnf : f.found = false := by
        cases hf : f.found with
        | false => rfl
        | true => exact absurd (hfound hf) hEq
      rw [if_neg hnb, if_neg hng]
      simp only [hEq, if_false]
      -- recursion step shared by two branches
      have rcr : ∀ f' : Find, T + c * d ≤ t → (f'.found = true → T + c * d = t) →
          (T + c * d < t → f'.exact = m1) →
          ∃ r k d_1, findLoop t es (T + c * d) (sn + c) f' = .ok r ∧ r.num = sn + k ∧ r.dur = some d_1 ∧
            (expand ((c, d) :: es))[k]? = some d_1 ∧
            T + startOf (expand ((c, d) :: es)) k ≤ t ∧
            (t < T + startOf (expand ((c, d) :: es)) k + d_1 ∨ T + startOf (expand ((c, d) :: es)) k = t) ∧
            (∀ j d', j < k → (expand ((c, d) :: es))[j]? = some d' →
              T + startOf (expand ((c, d) :: es)) j + d' ≤ t ∧ T + startOf (expand ((c, d) :: es)) j < t) ∧
            (r.exact = T + startOf (expand ((c, d) :: es)) k ∨
              (r.exact = m1 ∧ r.prior = T + startOf (expand ((c, d) :: es)) k)) ∧
            (∀ a b, (c, d) :: es = a ++ b → T + (expand a).sum = t → r.exact = t) := by
        intro f' hle hfd hex
        obtain ⟨r, k, d1, g1, g2, g3, g4, g5, g6, g7, g8, g9⟩ := ih (T + c * d) (sn + c) f'
          (fun e he => hes e (by simp [he])) (by omega) (by omega) hle (by omega) hfd hex
        have hst : ∀ k, startOf (expand ((c, d) :: es)) (c + k) = c * d + startOf (expand es) k := by
          intro k
          have := startOf_append_right (List.replicate c d) (expand es) k
          simp only [List.length_replicate, sum_replicate] at this
          rw [expand_cons]; exact this
        refine ⟨r, c + k, d1, g1, by omega, g3, ?_, ?_, ?_, ?_, ?_, ?_⟩
        · rw [expand_cons, List.getElem?_append_right (by simp)]
          simpa using g4
        · rw [hst]; omega
        · rw [hst]; omega
        · intro j d' hj hjd
          by_cases hjc : j < c
          · rw [expand_cons, List.getElem?_append_left (by simpa using hjc)] at hjd
            have hd' : d' = d := by
              have := List.mem_of_getElem? hjd
              exact List.eq_of_mem_replicate this
            subst hd'
            rw [expand_cons, startOf_append_left _ _ _ (by simp; omega),
              startOf_replicate _ _ _ (by simp only []; omega)]
            simp only []
            have : (j + 1) * d' ≤ c * d' := Nat.mul_le_mul_right _ (by omega)
            rw [Nat.succ_mul] at this
            refine ⟨by omega, ?_⟩
            by_cases h0 : d' = 0
            · subst h0; simp; omega
            · omega
          · obtain ⟨i, rfl⟩ : ∃ i, j = c + i := ⟨j - c, by omega⟩
            rw [expand_cons, List.getElem?_append_right (by simp)] at hjd
            have := g7 i d' (by omega) (by simpa using hjd)
            rw [hst]; omega
        · rw [hst]; omega
        · intro a b hab hs
          cases a with
          | nil => simp at hs; omega
          | cons x a =>
            simp only [List.cons_append, List.cons.injEq] at hab
            obtain ⟨rfl, hab⟩ := hab
            simp only [expand_cons, List.sum_append, sum_replicate] at hs
            exact g9 a b hab (by omega)
      by_cases hf1 : T + c * d < t
      · rw [if_pos hf1]
        exact rcr _ (by omega) (by simp [hnf]) (fun _ => by simpa using hexact hlt)
      · rw [if_neg hf1]
        by_cases hf2 : T + c * d = t
        · rw [if_pos hf2]
          exact rcr _ (by omega) (fun _ => hf2) (fun h => by omega)
        · rw [if_neg hf2]
          have hd0 : d ≠ 0 := by intro h; subst h; simp at hf1 hf2; omega
          have hdpos : 0 < d := Nat.pos_of_ne_zero hd0
          rw [if_neg hd0]
          have hq : (t - T) / d < c := by
            rw [Nat.div_lt_iff_lt_mul hdpos]; omega
          have hqd : (t - T) / d * d ≤ t - T := Nat.div_mul_le_self _ _
          have hqd2 : t - T < (t - T) / d * d + d := by
            have := Nat.lt_div_mul_add (a := t - T) hdpos
            omega
          generalize (t - T) / d = q at *
          have hqc : q * d + d ≤ c * d := by
            have : (q + 1) * d ≤ c * d := Nat.mul_le_mul_right d (by omega)
            rwa [Nat.succ_mul] at this
          rw [Nat.mod_eq_of_lt (show q < 4294967296 by omega),
            Nat.mod_eq_of_lt (show q * d < 4294967296 by omega),
            Nat.mod_eq_of_lt (show T + q * d < 18446744073709551616 by omega),
            Nat.mod_eq_of_lt (show sn + q < 4294967296 by omega),
            Nat.mod_eq_of_lt (show T + q * d + d < 18446744073709551616 by omega)]
          simp only [hnf, Bool.false_eq_true, if_false]
          rw [if_pos (by omega)]
          have hsq : startOf (expand ((c, d) :: es)) q = q * d := by
            rw [expand_cons, startOf_append_left _ _ _ (by simp; omega),
              startOf_replicate _ _ _ (by simp only []; omega)]
          refine ⟨_, q, d, rfl, rfl, rfl, ?_, ?_, ?_, ?_, ?_, ?_⟩
          · rw [expand_cons, List.getElem?_append_left (by simpa using hq)]
            simp [hq]
          · rw [hsq]; omega
          · rw [hsq]; omega
          · intro j d' hj hjd
            rw [expand_cons, List.getElem?_append_left (by simp; omega)] at hjd
            have hd' : d' = d := List.eq_of_mem_replicate (List.mem_of_getElem? hjd)
            subst hd'
            rw [expand_cons, startOf_append_left _ _ _ (by simp; omega),
              startOf_replicate _ _ _ (by simp only []; omega)]
            simp only []
            have : (j + 1) * d' ≤ q * d' := Nat.mul_le_mul_right _ (by omega)
            rw [Nat.succ_mul] at this
            omega
          · right
            exact ⟨by simpa using hexact hlt, by rw [hsq]⟩
          · intro a b hab hs
            cases a with
            | nil => simp at hs; omega
            | cons x a =>
              simp only [List.cons_append, List.cons.injEq] at hab
              obtain ⟨rfl, hab⟩ := hab
              simp only [expand_cons, List.sum_append, sum_replicate] at hs
              omega

end Verif.Stts
