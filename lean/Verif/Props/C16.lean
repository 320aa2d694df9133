import Verif.Model.Stss
import Verif.Spec.Batch
import Verif.Lemmas.Box

/-!
# C16 — sync sample answers match what was declared when adding samples
-/

namespace Verif.Stss

/-- One addition of samples: their number, the (1-based) numbers within the batch of its sync
samples, and what `realloc` leaves in new memory. -/
structure Add where
  n : Nat
  sync : List Nat
  junk : Nat → Nat

/-- The sync samples of the batch are given in increasing order, and are in the batch. -/
def Add.Valid (a : Add) : Prop := a.sync.Pairwise (· < ·) ∧ ∀ o ∈ a.sync, 1 ≤ o ∧ o ≤ a.n

/-- For each sample of the batch, whether it was declared sync. -/
def Add.declared (a : Add) : List Bool := (List.range a.n).map fun i => decide (i + 1 ∈ a.sync)

def addBatch (s : St) (a : Add) : Res St := tableAdd a.junk s a.n (some a.sync)

theorem scan_eq {n : Nat} : ∀ {A : List Nat}, A.Pairwise (· < ·) → scan n A = decide (n ∈ A) := by
  intro A
  induction A with
  | nil => intro _; rfl
  | cons x A ih =>
    intro h
    have h' := List.pairwise_cons.mp h
    unfold scan
    by_cases h1 : n = x
    · simp [h1]
    · rw [if_neg h1]
      by_cases h2 : n < x
      · rw [if_pos h2]
        symm
        simp only [List.mem_cons, h1, false_or, decide_eq_false_iff_not]
        intro hn
        have := h'.1 n hn
        omega
      · rw [if_neg h2, ih h'.2]
        simp [h1]

/-- Increasing numbers in `(lo, n]` are at most `n - lo`. -/
theorem increasing_length {n : Nat} : ∀ (S : List Nat) (lo : Nat), S.Pairwise (· < ·) →
    (∀ o ∈ S, lo < o ∧ o ≤ n) → S.length ≤ n - lo := by
  intro S
  induction S with
  | nil => intro lo _ _; simp
  | cons x S ih =>
    intro lo h1 h2
    have h1' := List.pairwise_cons.mp h1
    have := ih x h1'.2 (fun o ho => ⟨h1'.1 o ho, (h2 o (by simp [ho])).2⟩)
    have := h2 x (by simp)
    simp only [List.length_cons]; omega

/-- The table `t` lists the samples declared sync in `L`. -/
structure Rep (t : Stss) (L : List Bool) (A : List Nat) : Prop where
  count : t.count = A.length
  cells : t.cells.take A.length = A
  fits : A.length ≤ t.cells.length
  sorted : A.Pairwise (· < ·)
  mem : ∀ m, m ∈ A ↔ 1 ≤ m ∧ L[m - 1]? = some true

structure Inv (s : St) (L : List Bool) : Prop where
  samples : s.samples = L.length
  none : s.stss = none → ∀ b ∈ L, b = true
  some : ∀ t, s.stss = some t → ∃ A, Rep t L A ∧ t.alloc = 4 * t.cells.length ∧ t.alloc < 4294967296 ∧
    (t.count = 0 → t.flag ≠ 0)

theorem Rep.mem_le {t : Stss} {L : List Bool} {A : List Nat} (h : Rep t L A) {m : Nat} (hm : m ∈ A) :
    m ≤ L.length := by
  obtain ⟨h1, h2⟩ := (h.mem m).mp hm
  have := (List.getElem?_eq_some_iff.mp h2).1
  omega

theorem declared_length (a : Add) : a.declared.length = a.n := by simp [Add.declared]

theorem declared_mem (a : Add) (L : List Bool) (m : Nat) (hm : L.length < m) :
    (1 ≤ m ∧ (L ++ a.declared)[m - 1]? = some true) ↔ m - L.length ∈ a.sync ∧ m - L.length ≤ a.n := by
  rw [List.getElem?_append_right (by omega)]
  unfold Add.declared
  by_cases h : m - 1 - L.length < a.n
  · have e : m - 1 - L.length + 1 = m - L.length := by omega
    rw [List.getElem?_map, List.getElem?_range h]
    simp only [Option.map_some, Option.some.injEq, decide_eq_true_eq, e]
    constructor
    · rintro ⟨_, h2⟩; exact ⟨h2, by omega⟩
    · rintro ⟨h2, _⟩; exact ⟨by omega, h2⟩
  · rw [List.getElem?_eq_none (by simp; omega)]
    constructor
    · rintro ⟨_, h2⟩; cases h2
    · rintro ⟨_, h2⟩; omega

/-- Adding a batch to the table. `A` is what the table should hold before the batch: its entries,
or all the samples so far if the table was just created. -/
theorem addSamples_ok (a : Add) (ha : a.Valid) (t : Stss) (L : List Bool) (A : List Nat)
    (hA : A.Pairwise (· < ·)) (hmem : ∀ m, m ∈ A ↔ 1 ≤ m ∧ L[m - 1]? = some true)
    (hcases : (t = create ∧ A = (List.range L.length).map (· + 1)) ∨
      (t.count = A.length ∧ t.cells.take A.length = A ∧ A.length ≤ t.cells.length ∧ (t.count = 0 → t.flag ≠ 0)))
    (hAlen : A.length ≤ L.length)
    (halloc : t.alloc = 4 * t.cells.length) (h32 : t.alloc < 4294967296)
    (hl : L.length + a.n < 1073741568) :
    ∃ t' A', addSamples a.junk t (L.length + 1) a.n a.sync = .ok t' ∧ Rep t' (L ++ a.declared) A' ∧
      t'.alloc = 4 * t'.cells.length ∧ t'.alloc < 4294967296 ∧ (t'.count = 0 → t'.flag ≠ 0) := by
  have hk : a.sync.length ≤ a.n :=
    increasing_length (n := a.n) a.sync 0 ha.1 (fun o ho => by have := ha.2 o ho; omega)
  -- entries after the addition
  have hmap : (a.sync.map fun o => (L.length + 1 + (o - 1)) % 4294967296) = a.sync.map (L.length + ·) := by
    apply List.map_congr_left
    intro o ho
    have := ha.2 o ho
    omega
  have hsorted : (A ++ a.sync.map (L.length + ·)).Pairwise (· < ·) := by
    rw [List.pairwise_append]
    refine ⟨hA, ?_, ?_⟩
    · rw [List.pairwise_map]
      exact ha.1.imp (fun h => by omega)
    · intro x hx y hy
      obtain ⟨h1, h2⟩ := (hmem x).mp hx
      have := (List.getElem?_eq_some_iff.mp h2).1
      obtain ⟨o, ho, rfl⟩ := List.mem_map.mp hy
      have := ha.2 o ho
      omega
  have hmem' : ∀ m, m ∈ A ++ a.sync.map (L.length + ·) ↔ 1 ≤ m ∧ (L ++ a.declared)[m - 1]? = some true := by
    intro m
    rw [List.mem_append, hmem]
    by_cases hm : m ≤ L.length
    · constructor
      · rintro (⟨h1, h2⟩ | h)
        · exact ⟨h1, by rw [List.getElem?_append_left (by omega)]; exact h2⟩
        · obtain ⟨o, ho, rfl⟩ := List.mem_map.mp h
          have := ha.2 o ho
          omega
      · rintro ⟨h1, h2⟩
        rw [List.getElem?_append_left (by omega)] at h2
        exact Or.inl ⟨h1, h2⟩
    · rw [declared_mem a L m (by omega)]
      constructor
      · rintro (⟨_, h2⟩ | h)
        · have := (List.getElem?_eq_some_iff.mp h2).1; omega
        · obtain ⟨o, ho, rfl⟩ := List.mem_map.mp h
          have := ha.2 o ho
          rw [Nat.add_sub_cancel_left]
          exact ⟨ho, this.2⟩
      · rintro ⟨h1, _⟩
        exact Or.inr (List.mem_map.mpr ⟨m - L.length, h1, by omega⟩)
  -- the counts
  have hnew : newCount t (L.length + 1) a.sync.length = A.length + a.sync.length := by
    unfold newCount backFill pred32
    rcases hcases with ⟨rfl, hA⟩ | ⟨h1, _, _, h4⟩
    · have : A.length = L.length := by rw [hA]; simp
      rw [if_pos (show create.count = 0 from rfl), if_pos (show create.count = 0 ∧ create.flag = 0 from ⟨rfl, rfl⟩),
        if_neg (by omega)]
      omega
    · by_cases h0 : t.count = 0
      · rw [if_pos h0, if_neg (fun h => h4 h0 h.2)]; omega
      · rw [if_neg h0]; omega
  have hroom : ∃ cells, makeRoom a.junk t ((A.length + a.sync.length) * 4) = (4 * cells.length, cells) ∧
      A.length + a.sync.length ≤ cells.length ∧ 4 * cells.length < 4294967296 ∧
      (t.count = A.length → t.cells.take A.length = A → A.length ≤ t.cells.length → cells.take A.length = A) := by
    unfold makeRoom
    rw [halloc]
    by_cases hgt : (A.length + a.sync.length) * 4 > 4 * t.cells.length
    · rw [if_pos hgt]
      have hdiv : ∃ c, max ((4 * t.cells.length + 1024) % 4294967296) ((A.length + a.sync.length) * 4) = 4 * c ∧
          A.length + a.sync.length ≤ c ∧ c < 1073741824 ∧ t.cells.length ≤ c := by
        refine ⟨max ((4 * t.cells.length + 1024) % 4294967296 / 4) (A.length + a.sync.length), ?_, ?_, ?_, ?_⟩ <;> omega
      obtain ⟨c, hc1, hc2, hc3, hc4⟩ := hdiv
      rw [hc1, Nat.mul_div_cancel_left c (by omega)]
      have hlen := Mem.realloc_length a.junk t.cells hc4
      refine ⟨_, by rw [hlen], by omega, by omega, ?_⟩
      intro _ h2 h3
      rw [Mem.realloc_take a.junk t.cells hc4 h3, h2]
    · rw [if_neg hgt]
      exact ⟨_, rfl, by omega, by omega, fun _ h2 _ => h2⟩
  obtain ⟨cells, r1, r2, r3, r4⟩ := hroom
  have hsize : (A.length + a.sync.length) * 4 % 4294967296 = (A.length + a.sync.length) * 4 := by omega
  have hbad : ¬ (a.sync.any fun o => o = 0 ∨ o > a.n) = true := by
    simp only [List.any_eq_true, decide_eq_true_eq, not_exists, not_and]
    intro o ho
    have := ha.2 o ho
    omega
  have hstore : ∃ cells', Mem.store cells t.count
      ((List.range (backFill t (L.length + 1))).map (· + 1) ++ a.sync.map (L.length + ·)) = .ok cells' ∧
      cells'.length = cells.length ∧
      cells'.take (A ++ a.sync.map (L.length + ·)).length = A ++ a.sync.map (L.length + ·) := by
    rcases hcases with ⟨rfl, hA⟩ | ⟨h1, h2, h3, h4⟩
    · have hb : backFill create (L.length + 1) = L.length := by
        unfold backFill pred32; rw [if_pos ⟨rfl, rfl⟩, if_neg (by omega)]; omega
      rw [hb, ← hA]
      have := Mem.store_push (cells := cells) (L := []) (vals := A ++ a.sync.map (L.length + ·)) (by simp)
        (by simp; omega)
      show ∃ cells', Mem.store cells 0 _ = _ ∧ _
      simpa using this
    · have hb : backFill t (L.length + 1) = 0 := by
        unfold backFill; rw [if_neg (fun h => h4 h.1 h.2)]
      rw [hb, h1]
      have := Mem.store_push (cells := cells) (L := A) (vals := a.sync.map (L.length + ·)) (r4 h1 h2 h3)
        (by simp; omega)
      simpa using this
  obtain ⟨cells', s1, s2, s3⟩ := hstore
  refine ⟨⟨A.length + a.sync.length, 4 * cells.length, newFlag t a.sync.length, cells'⟩,
    A ++ a.sync.map (L.length + ·), ?_, ⟨?_, s3, ?_, hsorted, hmem'⟩, ?_, r3, ?_⟩
  · unfold addSamples
    rw [if_neg (by omega), if_neg hbad, hnew, hsize, r1, hmap, s1]
    rfl
  · simp
  · simp; omega
  · show 4 * cells.length = 4 * cells'.length
    omega
  · show A.length + a.sync.length = 0 → newFlag t a.sync.length ≠ 0
    intro h0
    unfold newFlag
    rcases hcases with ⟨rfl, hA⟩ | ⟨h1, _, _, h4⟩
    · simp [create]
    · rw [if_pos (by omega), if_neg (h4 (by omega)), if_pos (by omega)]
      omega

theorem range_pairwise (n : Nat) : ((List.range n).map (· + 1)).Pairwise (· < ·) := by
  rw [List.pairwise_map]
  exact List.pairwise_lt_range.imp (fun h => by omega)

theorem all_declared (a : Add) (ha : a.Valid) (h : a.sync.length = a.n) : ∀ b ∈ a.declared, b = true := by
  -- `n` increasing numbers in `1..n` are all of them
  have key : ∀ (S : List Nat) (lo n : Nat), S.Pairwise (· < ·) → (∀ o ∈ S, lo < o ∧ o ≤ n) →
      S.length = n - lo → ∀ x, lo < x → x ≤ n → x ∈ S := by
    intro S
    induction S with
    | nil => intro lo n _ _ h x h1 h2; simp at h; omega
    | cons y S ih =>
      intro lo n h1 h2 h3 x hx1 hx2
      have h1' := List.pairwise_cons.mp h1
      have hy := h2 y (by simp)
      simp only [List.length_cons] at h3
      have hlen : S.length ≤ n - y :=
        increasing_length S y h1'.2 (fun o ho => ⟨h1'.1 o ho, (h2 o (by simp [ho])).2⟩)
      have hyl : y = lo + 1 := by omega
      by_cases hxy : x = y
      · simp [hxy]
      · exact List.mem_cons_of_mem _ (ih y n h1'.2 (fun o ho => ⟨h1'.1 o ho, (h2 o (by simp [ho])).2⟩)
          (by omega) x (by omega) hx2)
  intro b hb
  obtain ⟨i, hi, rfl⟩ := List.mem_map.mp hb
  have := key a.sync 0 a.n ha.1 (fun o ho => by have := ha.2 o ho; omega) (by omega) (i + 1) (by omega)
    (by simp at hi; omega)
  simp [this]

theorem addBatch_ok (a : Add) (ha : a.Valid) (s : St) (L : List Bool) (h : Inv s L)
    (hl : L.length + a.n < 1073741568) : ∃ s', addBatch s a = .ok s' ∧ Inv s' (L ++ a.declared) := by
  have hs1 : (s.samples + a.n) % 4294967296 = L.length + a.n := by rw [h.samples]; omega
  have hs2 : (s.samples + 1) % 4294967296 = L.length + 1 := by rw [h.samples]; omega
  unfold addBatch tableAdd
  rw [hs1, hs2]
  -- the table to add to, if any
  cases hst : s.stss with
  | some t =>
    obtain ⟨A, hR, h1, h2, h3⟩ := h.some t hst
    have hAlen : A.length ≤ L.length := by
      have hb : ∀ m ∈ A, 1 ≤ m ∧ m ≤ L.length := fun m hm => ⟨((hR.mem m).mp hm).1, hR.mem_le hm⟩
      have := increasing_length (n := L.length) A 0 hR.sorted (fun o ho => by have := hb o ho; omega)
      omega
    obtain ⟨t', A', g1, g2, g3, g4, g5⟩ := addSamples_ok a ha t L A hR.sorted hR.mem
      (Or.inr ⟨hR.count, hR.cells, hR.fits, h3⟩) hAlen h1 h2 hl
    dsimp only
    rw [if_neg (by simp)]
    simp only [g1, Res.bind]
    refine ⟨_, rfl, ⟨by simp [declared_length], by simp, ?_⟩⟩
    intro t'' ht
    simp only [Option.some.injEq] at ht
    subst ht
    exact ⟨A', g2, g3, g4, g5⟩
  | none =>
    have hall := h.none hst
    by_cases hn : a.sync.length ≠ a.n
    · dsimp only
      rw [if_pos ⟨rfl, hn⟩]
      obtain ⟨t', A', g1, g2, g3, g4, g5⟩ := addSamples_ok a ha create L ((List.range L.length).map (· + 1))
        (range_pairwise _) (by
          intro m
          rw [List.mem_map]
          constructor
          · rintro ⟨i, hi, rfl⟩
            have hi : i < L.length := by simpa using hi
            refine ⟨by omega, ?_⟩
            rw [Nat.add_sub_cancel, List.getElem?_eq_getElem hi, hall _ (List.getElem_mem _)]
          · rintro ⟨h1, h2⟩
            have := (List.getElem?_eq_some_iff.mp h2).1
            exact ⟨m - 1, by simpa using this, by omega⟩)
        (Or.inl ⟨rfl, rfl⟩) (by simp) rfl (by decide) hl
      simp only [g1, Res.bind]
      refine ⟨_, rfl, ⟨by simp [declared_length], by simp, ?_⟩⟩
      intro t'' ht
      simp only [Option.some.injEq] at ht
      subst ht
      exact ⟨A', g2, g3, g4, g5⟩
    · dsimp only
      rw [if_neg (fun h => hn h.2)]
      refine ⟨_, rfl, ⟨by simp [declared_length], ?_, by simp⟩⟩
      intro _ b hb
      rcases List.mem_append.mp hb with hb | hb
      · exact hall b hb
      · exact all_declared a ha (by omega) b hb

theorem addAll_ok : ∀ (as : List Add) (s : St) (L : List Bool), Inv s L → (∀ a ∈ as, a.Valid) →
    L.length + (as.flatMap Add.declared).length < 1073741568 →
    ∃ s', runAll addBatch s as = .ok s' ∧ Inv s' (L ++ as.flatMap Add.declared) := by
  intro as
  induction as with
  | nil => intro s L h _ _; exact ⟨s, rfl, by simpa using h⟩
  | cons a as ih =>
    intro s L h hv hl
    rw [List.flatMap_cons, List.length_append, declared_length] at hl
    obtain ⟨s', g1, g2⟩ := addBatch_ok a (hv a (by simp)) s L h (by omega)
    obtain ⟨s'', k1, k2⟩ := ih s' _ g2 (fun x hx => hv x (by simp [hx]))
      (by rw [List.length_append, declared_length]; omega)
    refine ⟨s'', ?_, by simpa using k2⟩
    simp only [runAll, g1, Res.bind]; exact k1

theorem isSync_of_inv {s : St} {L : List Bool} (h : Inv s L) {n : Nat} {b : Bool} (hb : L[n]? = some b) :
    isSync s (n + 1) = .ok b := by
  unfold isSync
  cases hst : s.stss with
  | none =>
    have := h.none hst b (List.mem_of_getElem? hb)
    rw [this]
  | some t =>
    obtain ⟨A, hR, _⟩ := h.some t hst
    show isSyncSample t (n + 1) = _
    unfold isSyncSample
    rw [if_neg (by omega), hR.count, if_pos hR.fits, hR.cells, scan_eq hR.sorted]
    congr 1
    have := hR.mem (n + 1)
    rw [Nat.add_sub_cancel, hb] at this
    cases b <;> simp [this]

/-- After any history of additions that state their sync samples, asking about a sample answers
what was declared for it. (If all samples were declared sync there is no table, and the answer is
yes for all.) Samples are numbered from 1 in the library. -/
theorem c16_sync_samples (as : List Add) (hv : ∀ a ∈ as, a.Valid)
    (hl : (as.flatMap Add.declared).length < 1073741568) :
    ∃ s, runAll addBatch ⟨0, none⟩ as = .ok s ∧
      ∀ (n : Nat) (b : Bool), (as.flatMap Add.declared)[n]? = some b → isSync s (n + 1) = .ok b := by
  obtain ⟨s, h1, h2⟩ := addAll_ok as ⟨0, none⟩ [] ⟨rfl, by simp, by simp⟩ hv (by simpa using hl)
  exact ⟨s, h1, fun n b hb => isSync_of_inv (by simpa using h2) hb⟩

/-- Two sync samples, then a batch without any, then one with some. -/
example : ∃ s, runAll addBatch ⟨0, none⟩ [⟨2, [1, 2], fun _ => 9⟩, ⟨2, [], fun _ => 9⟩, ⟨3, [2], fun _ => 9⟩] = .ok s ∧
    isSync s 2 = .ok true ∧ isSync s 3 = .ok false ∧ isSync s 6 = .ok true := by
  obtain ⟨s, h1, h2⟩ := c16_sync_samples [⟨2, [1, 2], fun _ => 9⟩, ⟨2, [], fun _ => 9⟩, ⟨3, [2], fun _ => 9⟩]
    (by simp [Add.Valid]) (by simp [Add.declared])
  exact ⟨s, h1, h2 1 true (by decide), h2 2 false (by decide), h2 5 true (by decide)⟩

/-- The table itself survives being written and parsed. -/
theorem c16_stss_round_trip (version flags : Nat) (nums : List Nat) (hv : version < 256)
    (hf : flags < 16777216) (hn : nums.length < 1073741820) (hnum : ∀ x ∈ nums, x < 4294967296) :
    ∃ t, BoxRoundTrip (calcSize nums) (serialize version flags nums) parseBody ((version, flags), t)
        (fullBox (fcc 's' 't' 's' 's') version flags (be 4 nums.length ++ nums.flatMap (be 4))) ∧
      t.count = nums.length ∧ t.cells.take t.count = nums ∧
      (nums.Pairwise (· < ·) → ∀ n, n ≠ 0 → isSyncSample t n = .ok (decide (n ∈ nums))) := by
  have hlen : (nums.flatMap (be 4)).length = 4 * nums.length := flatMap_length_const nums (by simp)
  have hsz : calcSize nums = 16 + 4 * nums.length := by unfold calcSize; omega
  refine ⟨⟨nums.length, (nums.length + 1) % 4294967296 * 4 % 4294967296, 0, nums ++ [0]⟩, ?_, rfl, by simp, ?_⟩
  · refine BoxRoundTrip.ofFull ?_ ?_ (by simp only [List.length_append, be_length, hlen]; omega)
      (by omega) (by decide) (by decide)
    · exact (emits_put32 _).then (Emits.thenAssert (Emits.each nums fun o _ => emits_put32 o))
    · apply Parses.at
      refine (parses_versionFlags hv hf).bind ((parses_get32' (by omega)).bind ?_)
      refine (parses_repeat nums (be 4) (fun x hx => parses_get32' (hnum x hx)) rfl).bind_nil ?_
      rw [if_pos (by omega)]
      exact parses_pure _
  · intro hs n hn
    unfold isSyncSample
    rw [if_neg hn, if_pos (by simp)]
    simp [scan_eq hs]

/-- A batch that does not state its sync samples (NULL handle) is reported as not sync once there
is a table, although it was reported as sync before. -/
theorem c16_null_handle :
    ∃ s s', tableAdd (fun _ => 0) ⟨0, none⟩ 1 none = .ok s ∧ isSync s 1 = .ok true ∧
      (tableAdd (fun _ => 0) s 2 (some [1])).bind (fun s => tableAdd (fun _ => 0) s 1 none) = .ok s' ∧
      isSync s' 4 = .ok false := by
  refine ⟨⟨1, none⟩, ⟨4, some ⟨2, 1024, 1, 1 :: 2 :: List.replicate 254 0⟩⟩, ?_, ?_, ?_, ?_⟩ <;> decide +kernel

/-- Sync samples of a batch given out of order are lost: sample 1 was declared sync. -/
theorem c16_unsorted :
    ∃ s, tableAdd (fun _ => 0) ⟨0, none⟩ 3 (some [2, 1]) = .ok s ∧ isSync s 1 = .ok false := by
  refine ⟨⟨3, some ⟨2, 1024, 1, 2 :: 1 :: List.replicate 254 0⟩⟩, ?_, ?_⟩ <;> decide +kernel

end Verif.Stss
