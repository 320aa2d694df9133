import Verif.Model.Csgp

/-!
# What the optimiser of the compact sample groups maintains
-/

namespace Verif.Csgp

/-- The samples `from .. last` repeat with period `p`. -/
def Periodic (g : List Nat) (start p last : Nat) : Prop :=
  ∀ k, start + p ≤ k → k ≤ last → g[k]? = g[k - p]?

/-- What a tracker entry at `i` says is true. -/
structure Good (g : List Nat) (field i : Nat) (e : Tr) : Prop where
  span : e.start + e.count = i + 1
  prev : e.prev = (e.start : Int) - 1
  pos : 1 ≤ e.plen
  kind : (e.plen = 1 ∧ e.count = 1) ∨ e.plen < e.count
  rep : Periodic g e.start e.plen i
  cost : e.cost ≤ (i + 1) * field

structure Inv (g : List Nat) (field n : Nat) (trk : List Tr) : Prop where
  len : trk.length = n
  good : ∀ (i : Nat) (e : Tr), trk[i]? = some e → Good g field i e

theorem Mem.get_ok {α : Type} {cells : List α} {i : Nat} (h : i < cells.length) :
    Mem.get cells i = .ok cells[i] := by
  unfold Mem.get; rw [List.getElem?_eq_getElem h]

theorem Inv.get {g : List Nat} {field n : Nat} {trk : List Tr} (h : Inv g field n trk) {i : Nat}
    (hi : i < n) : ∃ e, trk[i]? = some e ∧ Mem.get trk i = .ok e ∧ Good g field i e := by
  have hi' : i < trk.length := by rw [h.len]; exact hi
  exact ⟨trk[i], List.getElem?_eq_getElem hi', Mem.get_ok hi', h.good i _ (List.getElem?_eq_getElem hi')⟩

theorem Inv.set {g : List Nat} {field n : Nat} {trk : List Tr} (h : Inv g field n trk) {i : Nat}
    (hi : i < n) {e : Tr} (he : Good g field i e) :
    ∃ trk', Mem.set trk i e = .ok trk' ∧ Inv g field n trk' := by
  have hi' : i < trk.length := by rw [h.len]; exact hi
  refine ⟨trk.set i e, if_pos hi', by simp [h.len], ?_⟩
  intro j x hx
  by_cases hj : i = j
  · subst hj
    rw [List.getElem?_set_self hi'] at hx
    cases hx; exact he
  · rw [List.getElem?_set_ne hj] at hx
    exact h.good j x hx

theorem setPattern_inv {g : List Nat} {field n plen start last : Nat} {trk : List Tr}
    (h : Inv g field n trk) (hp : 1 ≤ plen) (hsl : start + plen ≤ last) (hl : last < n)
    (hper : Periodic g start plen last) (hn : n * field < 1073741824) :
    ∃ trk', setPattern field plen start last trk = .ok trk' ∧ Inv g field n trk' := by
  obtain ⟨b, _, hb1, hb2⟩ := h.get (i := start - 1) (by omega)
  obtain ⟨e, _, he1, he2⟩ := h.get hl
  unfold setPattern
  rw [if_neg (by omega), hb1, he1]
  simp only [Res.bind]
  have c1 : b.cost ≤ n * field := Nat.le_trans hb2.cost (Nat.mul_le_mul_right _ (by omega))
  have c2 : plen * field ≤ n * field := Nat.mul_le_mul_right _ (by omega)
  rw [if_neg (by omega)]
  by_cases hc : b.cost + plen * field < e.cost
  · rw [if_pos hc]
    refine h.set hl ⟨?_, rfl, hp, Or.inr ?_, hper, ?_⟩
    · show start + (last - start + 1) = last + 1; omega
    · show plen < last - start + 1; omega
    · have := he2.cost
      show b.cost + plen * field ≤ (last + 1) * field
      omega
  · rw [if_neg hc]
    exact ⟨trk, rfl, h⟩

theorem setNonPattern_inv {g : List Nat} {field n i : Nat} {trk : List Tr}
    (h : Inv g field n trk) (hi : i < n) (hn : n * field < 1073741824) :
    ∃ trk', setNonPattern field i trk = .ok trk' ∧ Inv g field n trk' := by
  obtain ⟨b, _, hb1, hb2⟩ := h.get (i := i - 1) (by omega)
  obtain ⟨e, _, he1, he2⟩ := h.get hi
  unfold setNonPattern
  rw [hb1, he1]
  simp only [Res.bind]
  have c1 : b.cost ≤ n * field := Nat.le_trans hb2.cost (Nat.mul_le_mul_right _ (by omega))
  have c2 : 1 * field ≤ n * field := Nat.mul_le_mul_right _ (by omega)
  rw [if_neg (by omega)]
  by_cases hc : b.cost + field < e.cost
  · rw [if_pos hc]
    refine h.set hi ⟨rfl, rfl, Nat.le_refl 1, Or.inl ⟨rfl, rfl⟩, ?_, ?_⟩
    · intro k h1 h2
      have h1 : i + 1 ≤ k := h1
      omega
    · have := he2.cost
      show b.cost + field ≤ (i + 1) * field
      omega
  · rw [if_neg hc]
    exact ⟨trk, rfl, h⟩

theorem extend_inv {g : List Nat} {field n p start : Nat} (hg : n ≤ g.length) (hp : 1 ≤ p)
    (hn : n * field < 1073741824) : ∀ (k i : Nat) (trk : List Tr), i + k = n → start + p ≤ i →
    (∀ j, start + p ≤ j → j < i → g[j]? = g[j - p]?) → Inv g field n trk →
    ∃ trk', extend g field p start k i trk = .ok trk' ∧ Inv g field n trk' := by
  intro k
  induction k with
  | zero => intro i trk _ _ _ h; exact ⟨trk, rfl, h⟩
  | succ k ih =>
    intro i trk hik hi hper h
    unfold extend
    rw [Mem.get_ok (show i < g.length by omega), Mem.get_ok (show i - p < g.length by omega)]
    simp only [Res.bind]
    by_cases hc : g[i]'(by omega) = g[i - p]'(by omega)
    · rw [if_pos hc]
      have hper' : ∀ j, start + p ≤ j → j < i + 1 → g[j]? = g[j - p]? := by
        intro j h1 h2
        by_cases hj : j = i
        · subst hj
          rw [List.getElem?_eq_getElem (by omega), List.getElem?_eq_getElem (by omega), hc]
        · exact hper j h1 (by omega)
      obtain ⟨trk', h1, h2⟩ := setPattern_inv h hp hi (by omega)
        (fun j a b => hper' j a (by omega)) hn
      rw [h1]
      exact ih (i + 1) trk' (by omega) (by omega) hper' h2
    · rw [if_neg hc]
      exact ⟨trk, rfl, h⟩

theorem findFor_inv {g : List Nat} {field n i : Nat} (hg : n ≤ g.length) (hi : i < n)
    (hn : n * field < 1073741824) : ∀ (ps : List Nat) (trk : List Tr), (∀ p ∈ ps, 1 ≤ p) → Inv g field n trk →
    ∃ trk', findFor g field n i ps trk = .ok trk' ∧ Inv g field n trk' := by
  intro ps
  induction ps with
  | nil => intro trk _ h; exact ⟨trk, rfl, h⟩
  | cons p ps ih =>
    intro trk hps h
    unfold findFor
    by_cases hip : i < p
    · rw [if_pos hip]; exact ⟨trk, rfl, h⟩
    · rw [if_neg hip, Mem.get_ok (show i < g.length by omega), Mem.get_ok (show i - p < g.length by omega)]
      simp only [Res.bind]
      by_cases hc : g[i]'(by omega) = g[i - p]'(by omega)
      · rw [if_pos hc]
        obtain ⟨trk', h1, h2⟩ := extend_inv hg (hps p (by simp)) hn (n - i) i trk (start := i - p) (by omega)
          (by omega) (by intro j a b; omega) h
        rw [h1]
        exact ih trk' (fun q hq => hps q (by simp [hq])) h2
      · rw [if_neg hc]
        exact ih trk (fun q hq => hps q (by simp [hq])) h

theorem findAll_inv {g : List Nat} {field n : Nat} (hg : n ≤ g.length) (hn : n * field < 1073741824) :
    ∀ (is : List Nat) (trk : List Tr), (∀ i ∈ is, i < n) → Inv g field n trk →
    ∃ trk', findAll g field n is trk = .ok trk' ∧ Inv g field n trk' := by
  intro is
  induction is with
  | nil => intro trk _ h; exact ⟨trk, rfl, h⟩
  | cons i is ih =>
    intro trk his h
    have hi : i < n := his i (by simp)
    obtain ⟨t1, a1, a2⟩ := setNonPattern_inv h hi hn
    obtain ⟨t2, b1, b2⟩ := findFor_inv hg hi hn (List.range' 1 32) t1 (by
      intro p hp; rw [List.mem_range'] at hp; obtain ⟨k, _, rfl⟩ := hp; omega) a2
    obtain ⟨t3, c1, c2⟩ := ih t2 (fun j hj => his j (by simp [hj])) b2
    refine ⟨t3, ?_, c2⟩
    unfold findAll find
    rw [a1]
    simp only [Res.bind]
    rw [b1]
    exact c1

theorem init_inv (g : List Nat) (field n : Nat) : Inv g field n (initTrackers field n) := by
  refine ⟨by simp [initTrackers], ?_⟩
  intro i e he
  unfold initTrackers at he
  rw [List.getElem?_map] at he
  have hi : i < n := by
    by_cases h : i < n
    · exact h
    · rw [List.getElem?_eq_none (by simp; omega)] at he
      cases he
  rw [List.getElem?_range hi] at he
  simp only [Option.map_some, Option.some.injEq] at he
  subst he
  refine ⟨rfl, rfl, Nat.le_refl 1, Or.inl ⟨rfl, rfl⟩, ?_, Nat.le_refl _⟩
  intro k h1 h2
  have h1 : i + 1 ≤ k := h1
  omega

/-! ### The normalising loop changes nothing -/

theorem normLoop_id (g : List Nat) : ∀ (k i : Nat) (hi : i - 1 < g.length), 1 ≤ i → i + k ≤ g.length →
    ∃ (h : i + k - 1 < g.length), normLoop (List.range' i k) g g[i - 1] = .ok (g, g[i + k - 1]) := by
  intro k
  induction k with
  | zero => intro i hi h1 h2; exact ⟨hi, rfl⟩
  | succ k ih =>
    intro i hi h1 h2
    refine ⟨by omega, ?_⟩
    obtain ⟨hlt, e⟩ := ih (i + 1) (by omega) (by omega) (by omega)
    rw [List.range'_succ]
    unfold normLoop
    rw [Mem.get_ok hi, Mem.get_ok (show i < g.length by omega)]
    simp only [Res.bind]
    have e2 : g[i + 1 - 1]'(by omega) = g[i]'(by omega) := by simp
    have e3 : g[i + 1 + k - 1]'(by omega) = g[i + (k + 1) - 1]'(by omega) := by
      congr 1; omega
    rw [e2, e3] at e
    by_cases hc : g[i - 1] = g[i]'(by omega)
    · rw [if_pos hc]
      unfold Mem.set
      rw [if_pos hi, List.set_getElem_self]
      simp only
      rw [hc]
      exact e
    · rw [if_neg hc]
      exact e

theorem normalise_id (g : List Nat) (n : Nat) (hn : 0 < n) (hg : n ≤ g.length) :
    normalise g n = .ok g := by
  unfold normalise
  rw [Mem.get_ok (show 0 < g.length by omega)]
  obtain ⟨h, e⟩ := normLoop_id g (n - 1) 1 (by omega) (by omega) (by omega)
  have e0 : g[1 - 1]'(by omega) = g[0]'(by omega) := by simp
  rw [e0] at e
  simp only [Res.bind, e]
  have e1 : pred32 n = n - 1 := by unfold pred32; rw [if_neg (by omega)]
  have e2 : g[1 + (n - 1) - 1] = g[n - 1]'(by omega) := by congr 1; omega
  rw [e1, e2]
  unfold Mem.set
  rw [if_pos (by omega), List.set_getElem_self]

/-! ### Following the links -/

/-- The chain of `k` entries from `idx` on covers the samples from `pos` to the end with the
segments `segs` (start, pattern length, sample count). -/
def Walk (g : List Nat) (n : Nat) (trk : List Tr) : Nat → Int → Nat → List (Nat × Nat × Nat) → Prop
  | 0, idx, pos, segs => idx = n ∧ pos = n ∧ segs = []
  | k + 1, idx, pos, segs => ∃ e rest, 0 ≤ idx ∧ idx < n ∧ trk[idx.toNat]? = some e ∧
      e.start = pos ∧ (pos : Int) + e.count = idx + 1 ∧ 1 ≤ e.plen ∧ e.plen ≤ e.count ∧
      Periodic g pos e.plen idx.toNat ∧ segs = (pos, e.plen, e.count) :: rest ∧
      Walk g n trk k e.next (pos + e.count) rest

theorem Walk.set {g : List Nat} {n : Nat} {trk : List Tr} {x : Tr} {j : Nat} :
    ∀ (k : Nat) (idx : Int) (pos : Nat) (segs : List (Nat × Nat × Nat)), j < pos →
    Walk g n trk k idx pos segs → Walk g n (trk.set j x) k idx pos segs := by
  intro k
  induction k with
  | zero => intro idx pos segs _ h; exact h
  | succ k ih =>
    rintro idx pos segs hj ⟨e, rest, h1, h2, h3, h4, h5, h6, h7, h8, h9, h10⟩
    refine ⟨e, rest, h1, h2, ?_, h4, h5, h6, h7, h8, h9, ih _ _ _ (by omega) h10⟩
    rw [List.getElem?_set_ne (by omega)]
    exact h3

theorem countNon_spec {g : List Nat} {field n : Nat} {trk : List Tr} (hlen : trk.length = n) :
    ∀ (k : Nat) (i : Int) (c : Nat), -1 ≤ i → i < n → i + 2 ≤ k →
    (∀ (j : Nat) (e : Tr), (j : Int) ≤ i → trk[j]? = some e → Good g field j e) →
    ∃ m : Nat, countNon trk n k i c = .ok (c + m, i - m) ∧ (m : Int) ≤ i + 1 ∧
      (∀ e, trk[i.toNat]? = some e → 0 < m → e.start = i) := by
  intro k
  induction k with
  | zero => intro i c _ _ _ _; exfalso; omega
  | succ k ih =>
    intro i c h1 h2 h3 hgood
    unfold countNon
    by_cases hi : 0 ≤ i
    · rw [if_pos ⟨hi, h2⟩]
      have hlt : i.toNat < trk.length := by omega
      rw [Mem.get_ok hlt]
      simp only [Res.bind]
      have hg := hgood i.toNat _ (by omega) (List.getElem?_eq_getElem hlt)
      by_cases hc : trk[i.toNat].plen = 1 ∧ trk[i.toNat].count = 1
      · rw [if_pos hc]
        have hs := hg.span
        have hp := hg.prev
        have hst : (trk[i.toNat].start : Int) = i := by omega
        obtain ⟨m, m1, m2, _⟩ := ih trk[i.toNat].prev (c + 1) (by omega) (by omega) (by omega)
          (fun j e hj he => hgood j e (by omega) he)
        refine ⟨m + 1, ?_, by omega, ?_⟩
        rotate_left
        · intro e he _
          rw [List.getElem?_eq_getElem hlt] at he
          cases he; exact hst
        rw [m1]
        congr 2
        · omega
        · rw [hp, hst]; omega
      · rw [if_neg hc]
        exact ⟨0, by simp, by omega, by intro e _ h; omega⟩
    · rw [if_neg (by omega)]
      exact ⟨0, by simp, by omega, by intro e _ h; omega⟩

/-- Sum of the pattern lengths. -/
def lens (segs : List (Nat × Nat × Nat)) : Nat := (segs.map (·.2.1)).sum

theorem Walk.lens_le {g : List Nat} {n : Nat} {trk : List Tr} :
    ∀ (k : Nat) (idx : Int) (pos : Nat) (segs : List (Nat × Nat × Nat)),
    Walk g n trk k idx pos segs → lens segs + pos ≤ n ∧ k + pos ≤ n ∧ segs.length = k := by
  intro k
  induction k with
  | zero => rintro idx pos segs ⟨_, h2, h3⟩; subst h3; simp [lens]; omega
  | succ k ih =>
    rintro idx pos segs ⟨e, rest, h1, h2, h3, h4, h5, h6, h7, h8, h9, h10⟩
    obtain ⟨a, b, c⟩ := ih _ _ _ h10
    subst h9
    simp only [lens, List.map_cons, List.sum_cons, List.length_cons] at *
    omega

theorem combine_spec {g : List Nat} {field n : Nat} (hn : n < 1073741824) :
    ∀ (k : Nat) (prev : Int) (s : Comb) (segs : List (Nat × Nat × Nat)), prev + 2 ≤ k → -1 ≤ prev → prev < n →
    s.trk.length = n → (∀ (j : Nat) (e : Tr), (j : Int) ≤ prev → s.trk[j]? = some e → Good g field j e) →
    Walk g n s.trk s.patterns s.start (prev + 1).toNat segs → s.total = lens segs →
    ∃ s' segs', combine n k prev s = .ok s' ∧ s'.trk.length = n ∧
      Walk g n s'.trk s'.patterns s'.start 0 segs' ∧ s'.total = lens segs' := by
  intro k
  induction k with
  | zero => intro prev s segs h1 h2; exfalso; omega
  | succ k ih =>
    intro prev s segs hk h1 h2 hlen hgood hwalk htot
    unfold combine
    by_cases hp : 0 ≤ prev
    · rw [if_pos ⟨hp, h2⟩]
      have hlt : prev.toNat < s.trk.length := by omega
      obtain ⟨E, hE⟩ : ∃ E, s.trk[prev.toNat]? = some E := ⟨_, List.getElem?_eq_getElem hlt⟩
      have hg := hgood prev.toNat E (by omega) hE
      have hget : Mem.get s.trk prev.toNat = .ok E := by unfold Mem.get; rw [hE]
      obtain ⟨m, m1, m2, m4⟩ := countNon_spec hlen (n + 1) prev 0 h1 h2 (by omega) hgood
      rw [hget]
      simp only [Res.bind]
      rw [m1]
      simp only [Nat.zero_add]
      unfold Mem.set
      rw [if_pos hlt]
      simp only
      obtain ⟨w1, w2, w3⟩ := hwalk.lens_le
      have hspan := hg.span
      have hprev := hg.prev
      have hpos := hg.pos
      have hkind := hg.kind
      have hw' := Walk.set (x := combined E m (prev - m) s.start) (j := prev.toNat) _ _ _ _
        (by omega) hwalk
      by_cases hm : m = 0
      · -- a pattern
        subst hm
        have hc : combined E 0 (prev - (0 : Nat)) s.start =
            { E with next := s.start } := by simp [combined]
        rw [hc] at hw' ⊢
        have hpc : (s.patterns + 1) % 4294967296 = s.patterns + 1 := by omega
        have htc : (s.total + (if (0 : Nat) ≠ 0 then 0 else E.plen)) % 4294967296 =
            s.total + E.plen := by rw [if_neg (by omega)]; omega
        rw [hpc, htc]
        refine ih _ _ ((E.start, E.plen, E.count) :: segs)
          ?_ ?_ ?_ (by rw [List.length_set, hlen]) ?_ ?_ ?_
        · show E.prev + 2 ≤ k; omega
        · show -1 ≤ E.prev; omega
        · show E.prev < n; omega
        · intro j e hj he
          have hj : (j : Int) ≤ E.prev := hj
          rw [List.getElem?_set_ne (by omega)] at he
          exact hgood j e (by omega) he
        · have e1 : (({ E with next := s.start } : Tr).prev + 1).toNat =
              E.start := by
            show (E.prev + 1).toNat = _; omega
          rw [e1]
          refine ⟨{ E with next := s.start }, segs, hp, h2, ?_, rfl, ?_, hpos, ?_, hg.rep, rfl, ?_⟩
          · exact List.getElem?_set_self hlt
          · show (E.start : Int) + E.count = prev + 1; omega
          · show E.plen ≤ E.count; omega
          · have e2 : (prev + 1).toNat = E.start + E.count := by omega
            rw [← e2]; exact hw'
        · show s.total + E.plen = lens (_ :: segs)
          rw [htot]; simp [lens]; omega
      · -- merged samples
        have hst := m4 E hE (by omega)
        have hsub : sub32 E.start (m - 1) = (prev + 1).toNat - m := by
          unfold sub32; omega
        have hc : combined E m (prev - m) s.start =
            { E with
                plen := m, count := m, start := (prev + 1).toNat - m, prev := prev - m, next := s.start } := by
          unfold combined; rw [if_pos hm, hsub]
        rw [hc] at hw' ⊢
        have hpc : (s.patterns + 1) % 4294967296 = s.patterns + 1 := by omega
        have htc : (s.total + (if m ≠ 0 then m else E.plen)) % 4294967296 =
            s.total + m := by rw [if_pos hm]; omega
        rw [hpc, htc]
        refine ih _ _ (((prev + 1).toNat - m, m, m) :: segs) ?_ ?_ ?_ (by rw [List.length_set, hlen]) ?_ ?_ ?_
        · show prev - m + 2 ≤ k; omega
        · show -1 ≤ prev - m; omega
        · show prev - m < n; omega
        · intro j e hj he
          have hj : (j : Int) ≤ prev - m := hj
          rw [List.getElem?_set_ne (by omega)] at he
          exact hgood j e (by omega) he
        · have e1 : (prev - m + 1).toNat = (prev + 1).toNat - m := by omega
          show Walk _ _ _ _ _ (prev - m + 1).toNat _
          rw [e1]
          refine ⟨_, segs, hp, h2, List.getElem?_set_self hlt, rfl, ?_, ?_, Nat.le_refl m, ?_, rfl, ?_⟩
          · show (((prev + 1).toNat - m : Nat) : Int) + m = prev + 1; omega
          · show 1 ≤ m; omega
          · intro j j1 j2
            have j1 : (prev + 1).toNat - m + m ≤ j := j1
            have j2 : j ≤ prev.toNat := j2
            omega
          · have e2 : (prev + 1).toNat - m + m = (prev + 1).toNat := by omega
            show Walk _ _ _ _ _ ((prev + 1).toNat - m + m) _
            rw [e2]; exact hw'
        · show s.total + m = lens (_ :: segs)
          rw [htot]; simp [lens]; omega
    · rw [if_neg (by omega)]
      have e : (prev + 1).toNat = 0 := by omega
      rw [e] at hwalk
      exact ⟨s, segs, rfl, hlen, hwalk, htot⟩

/-- The indices of the patterns. -/
def descsOf (g : List Nat) (segs : List (Nat × Nat × Nat)) : List Nat :=
  segs.flatMap fun s => (g.drop s.1).take s.2.1

theorem emit_spec {g : List Nat} {n : Nat} {frag msb : Bool} {size total : Nat} {trk : List Tr}
    (hg : n ≤ g.length) (hlen : trk.length = n) :
    ∀ (k : Nat) (idx : Int) (pos : Nat) (segs : List (Nat × Nat × Nat)) (o : Out),
    Walk g n trk k idx pos segs → o.descs.length + lens segs ≤ total →
    emit g n frag msb size total trk k idx o =
        .ok ⟨o.patterns ++ segs.map (·.2), o.descs ++ (descsOf g segs).map (encIndex frag msb size)⟩ ∧
      (descsOf g segs).length = lens segs := by
  intro k
  induction k with
  | zero => rintro idx pos segs o ⟨_, _, rfl⟩ _; simp [emit, descsOf, lens]
  | succ k ih =>
    rintro idx pos segs o hw ht
    obtain ⟨l1, _, _⟩ := hw.lens_le
    obtain ⟨e, rest, h1, h2, h3, h4, h5, h6, h7, h8, rfl, h10⟩ := hw
    have hlt : idx.toNat < trk.length := by omega
    have he : Mem.get trk idx.toNat = .ok e := by unfold Mem.get; rw [h3]
    have hl : lens ((pos, e.plen, e.count) :: rest) = e.plen + lens rest := by simp [lens]
    rw [hl] at ht l1
    have hvl : ((g.drop pos).take e.plen).length = e.plen := by simp; omega
    obtain ⟨i1, i2⟩ := ih e.next (pos + e.count) rest
      ⟨o.patterns ++ [(e.plen, e.count)], o.descs ++ ((g.drop pos).take e.plen).map (encIndex frag msb size)⟩ h10
      (by rw [List.length_append, List.length_map, hvl]; omega)
    have hd : descsOf g ((pos, e.plen, e.count) :: rest) = (g.drop pos).take e.plen ++ descsOf g rest := by
      simp [descsOf]
    refine ⟨?_, by rw [hd, List.length_append, hvl, i2, hl]⟩
    unfold emit
    rw [if_neg (by omega), he]
    simp only [Res.bind]
    rw [if_neg (by omega), h4]
    unfold slice
    rw [if_pos (by omega)]
    simp only
    rw [hvl, if_neg (by omega), i1, hd]
    simp

end Verif.Csgp
