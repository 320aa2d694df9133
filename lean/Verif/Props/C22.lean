import Verif.Model.Sbgp
import Verif.Spec.Batch
import Verif.Spec.Rle
import Verif.Lemmas.Box
import Verif.Lemmas.Rle

/-!
# C22 — the sample-to-group mapping survives run-length writing and parsing
# C47 — the samples of a group
-/

namespace Verif.Sbgp

/-- Operations on a mapping: `n` more samples; map `n` consecutive samples to a group, starting at a
sample counted from 0 or, if negative, back from the end. `junk` is what new memory holds. -/
inductive Op
  | add (n : Nat) (junk : Nat → Nat)
  | map (group : Nat) (index : Int) (n : Nat)

/-- First sample (from 0) that a map operation addresses among `n` samples. -/
def first (n : Nat) (index : Int) : Int := if index < 0 then n + index else index

/-- The group of all samples after an operation; 0 is no group. Mapping beyond the last sample is
refused. -/
def Op.apply (L : List Nat) : Op → List Nat
  | .add n _ => L ++ List.replicate n 0
  | .map g index n =>
    if first L.length index + n ≤ L.length then
      Mem.overwrite L (first L.length index).toNat (List.replicate n g)
    else L

/-- Arguments of their C types; less than 2^28 samples; no index from the end before the first
sample. -/
def Op.Valid (m : Nat) : Op → Prop
  | .add k _ => m + k < 268435456
  | .map g index n => g < 4294967296 ∧ -(m : Int) ≤ index ∧ index < 2147483648 ∧ n < 2147483648

/-- A refused call leaves the atom as it is. -/
def step (t : Sbgp) : Op → Res Sbgp
  | .add n junk => addSamples junk t n
  | .map g index n =>
    match mapSamples t g index n with
    | .err _ => .ok t
    | r => r

/-- Every operation is valid in the state it is applied to. -/
def AllValid : List Nat → List Op → Prop
  | _, [] => True
  | L, o :: os => o.Valid L.length ∧ AllValid (o.apply L) os

structure Rep (t : Sbgp) (L : List Nat) : Prop where
  count : t.count = L.length
  alloc : t.alloc = 4 * t.cells.length
  cells : t.cells.take L.length = L

theorem Rep.le {t : Sbgp} {L : List Nat} (h : Rep t L) : L.length ≤ t.cells.length := by
  have := congrArg List.length h.cells
  rw [List.length_take] at this; omega

/-- The first `n` cells are `L`. -/
structure Pre (t : Sbgp) (L : List Nat) : Prop where
  alloc : t.alloc = 4 * t.cells.length
  cells : t.cells.take L.length = L

theorem append_pre {junk : Nat → Nat} {t : Sbgp} {L : List Nat} (h : Pre t L) (vals : List Nat)
    (hn : L.length + vals.length < 1073741824) :
    ∃ t', append junk t L.length vals = .ok t' ∧ Pre t' (L ++ vals) ∧ t'.sizeCode = t.sizeCode ∧
      t'.msb = t.msb ∧ t'.frag = t.frag := by
  have hle : L.length ≤ t.cells.length := by
    have := congrArg List.length h.cells
    rw [List.length_take] at this; omega
  have e : (L.length + vals.length) % 4294967296 * 4 % 4294967296 = 4 * (L.length + vals.length) := by omega
  have hens : Pre (ensureSize junk t (4 * (L.length + vals.length))) L ∧
      L.length + vals.length ≤ (ensureSize junk t (4 * (L.length + vals.length))).cells.length := by
    unfold ensureSize
    by_cases hk : 4 * (L.length + vals.length) > t.alloc
    · rw [if_pos hk]
      have ha := h.alloc
      have hle' : t.cells.length ≤ max ((t.alloc + 8192) % 4294967296) (4 * (L.length + vals.length)) / 4 := by
        omega
      have hdiv : 4 * (max ((t.alloc + 8192) % 4294967296) (4 * (L.length + vals.length)) / 4) =
          max ((t.alloc + 8192) % 4294967296) (4 * (L.length + vals.length)) := by omega
      refine ⟨⟨?_, ?_⟩, ?_⟩
      · simp only [Mem.realloc_length junk _ hle', hdiv]
      · simp only [Mem.realloc_take junk _ hle' hle, h.cells]
      · simp only [Mem.realloc_length junk _ hle']; omega
    · rw [if_neg hk]
      have ha := h.alloc
      exact ⟨h, by omega⟩
  obtain ⟨c, h1, h2, h3⟩ := Mem.store_push (vals := vals) hens.1.cells hens.2
  refine ⟨{ ensureSize junk t (4 * (L.length + vals.length)) with cells := c }, ?_, ⟨?_, h3⟩, ?_⟩
  · unfold append
    rw [e, h1]
    rfl
  · show (ensureSize junk t (4 * (L.length + vals.length))).alloc = 4 * c.length
    rw [h2]; exact hens.1.alloc
  · unfold ensureSize
    split <;> exact ⟨rfl, rfl, rfl⟩

theorem addSamples_rep {junk : Nat → Nat} {t : Sbgp} {L : List Nat} (h : Rep t L) (n : Nat)
    (hn : L.length + n < 1073741824) :
    ∃ t', addSamples junk t n = .ok t' ∧ Rep t' (L ++ List.replicate n 0) ∧ t'.sizeCode = t.sizeCode ∧
      t'.msb = t.msb ∧ t'.frag = t.frag := by
  obtain ⟨t', h1, h2, h3⟩ := append_pre (junk := junk) ⟨h.alloc, h.cells⟩ (List.replicate n 0) (by simpa using hn)
  refine ⟨{ t' with count := w32(t.count + n) }, ?_, ⟨?_, h2.alloc, h2.cells⟩, h3⟩
  · unfold addSamples
    rw [h.count, h1]
    rfl
  · show (t.count + n) % 4294967296 = _
    rw [h.count, List.length_append, List.length_replicate]; omega

theorem rep_create (frag : Bool) : Rep (create frag) [] := ⟨rfl, rfl, rfl⟩

theorem Rep.note {t : Sbgp} {L : List Nat} (h : Rep t L) (g : Nat) : Rep (noteIndex t g) L :=
  ⟨h.count, h.alloc, h.cells⟩

theorem mapSamples_rep {t : Sbgp} {L : List Nat} (h : Rep t L) (g : Nat) (index : Int) (n : Nat)
    (hL : L.length < 1073741824) (h1 : -(L.length : Int) ≤ index) (h2 : index < 2147483648)
    (h3 : n < 2147483648) :
    (first L.length index + n ≤ L.length → ∃ t', mapSamples t g index n = .ok (noteIndex t' g) ∧
      Rep t' (Mem.overwrite L (first L.length index).toNat (List.replicate n g)) ∧
      t'.sizeCode = t.sizeCode ∧ t'.msb = t.msb ∧ t'.frag = t.frag) ∧
    (¬ first L.length index + n ≤ L.length → mapSamples t g index n = .err .badParam) := by
  unfold first
  have done : ∀ (start : Nat), start + n ≤ L.length → ∃ t' : Sbgp,
      ((Mem.store t.cells start (List.replicate n g)).bind fun c => .ok (noteIndex { t with cells := c } g)) =
        .ok (noteIndex t' g) ∧
        Rep t' (Mem.overwrite L start (List.replicate n g)) ∧
        t'.sizeCode = t.sizeCode ∧ t'.msb = t.msb ∧ t'.frag = t.frag := by
    intro start hs
    obtain ⟨c, g1, g2, g3⟩ := Mem.store_over (vals := List.replicate n g) h.cells (by simpa using hs)
    refine ⟨{ t with cells := c }, by rw [g1]; rfl, ⟨?_, ?_, ?_⟩, rfl, rfl, rfl⟩
    · rw [Mem.overwrite_length]; exact h.count
    · show t.alloc = 4 * c.length
      rw [g2]; exact h.alloc
    · rw [Mem.overwrite_length]; exact g3
  by_cases hneg : index < 0
  · rw [if_pos hneg]
    unfold mapSamples
    rw [if_pos hneg]
    refine ⟨fun hr => ?_, fun hr => ?_⟩
    · rw [if_neg (by omega)]
      by_cases hd : n = 0
      · rw [if_pos hd]
        refine ⟨t, rfl, ?_, rfl, rfl, rfl⟩
        subst hd
        rw [Mem.overwrite_eq (by simp; omega)]
        simpa using h
      · rw [if_neg hd]
        have e : fromEnd t.count index = ((L.length : Int) + index).toNat := by
          unfold fromEnd u32i; rw [h.count]; omega
        rw [e]
        exact done ((L.length : Int) + index).toNat (by omega)
    · rw [if_pos (by omega)]
  · rw [if_neg hneg]
    unfold mapSamples
    rw [if_neg hneg]
    have e : (n + index.toNat) % 4294967296 = n + index.toNat := by omega
    have hc := h.count
    rw [e]
    refine ⟨fun hr => ?_, fun hr => ?_⟩
    · rw [if_neg (by omega)]
      exact done index.toNat (by omega)
    · rw [if_pos (by omega)]

theorem step_rep {t : Sbgp} {L : List Nat} (h : Rep t L) (hL : L.length < 268435456) (o : Op)
    (hv : o.Valid L.length) :
    ∃ t', step t o = .ok t' ∧ Rep t' (o.apply L) ∧ (o.apply L).length < 268435456 := by
  cases o with
  | add n junk =>
    have hv : L.length + n < 268435456 := hv
    obtain ⟨t', g1, g2, _⟩ := addSamples_rep (junk := junk) h n (by omega)
    exact ⟨t', g1, g2, by rw [Op.apply, List.length_append, List.length_replicate]; omega⟩
  | map g index n =>
    obtain ⟨_, v1, v2, v3⟩ := hv
    obtain ⟨k1, k2⟩ := mapSamples_rep h g index n (by omega) v1 v2 v3
    unfold step
    simp only [Op.apply]
    by_cases hr : first L.length index + n ≤ L.length
    · obtain ⟨t', m1, m2, _⟩ := k1 hr
      rw [m1, if_pos hr]
      exact ⟨_, rfl, m2.note g, by rw [Mem.overwrite_length]; exact hL⟩
    · rw [k2 hr, if_neg hr]
      exact ⟨_, rfl, h, hL⟩

theorem run_rep (ops : List Op) : ∀ (t : Sbgp) (L : List Nat), Rep t L → L.length < 268435456 →
    AllValid L ops → ∃ t', runAll step t ops = .ok t' ∧ Rep t' (ops.foldl Op.apply L) ∧
      (ops.foldl Op.apply L).length < 268435456 := by
  induction ops with
  | nil => intro t L h hL _; exact ⟨t, rfl, h, hL⟩
  | cons o ops ih =>
    intro t L h hL hv
    obtain ⟨t', h1, h2, h3⟩ := step_rep h hL o hv.1
    obtain ⟨t'', g1, g2, g3⟩ := ih t' _ h2 h3 hv.2
    refine ⟨t'', ?_, g2, g3⟩
    simp only [runAll, h1, Res.bind]
    exact g1

theorem Rep.get {t : Sbgp} {L : List Nat} (h : Rep t L) (n : Nat) : getMap t (n + 1) = .ok (L.getD n 0) := by
  unfold getMap
  rw [if_neg (by omega), h.count]
  by_cases hn : n + 1 > L.length
  · rw [if_pos hn]
    simp [List.getD_eq_getElem?_getD, List.getElem?_eq_none (show L.length ≤ n by omega)]
  · rw [if_neg hn, Nat.add_sub_cancel, Mem.get_of_take h.cells (by omega)]
    simp [List.getD_eq_getElem?_getD, List.getElem?_eq_getElem (show n < L.length by omega)]

/-! ### Run-length coding -/

/-- Runs of equal elements: no empty run, neighbours differ. -/
def Canonical (rs : List (Nat × Nat)) : Prop :=
  (∀ r ∈ rs, 0 < r.1) ∧ ∀ (i : Nat) (a b : Nat × Nat), rs[i]? = some a → rs[i + 1]? = some b → a.2 ≠ b.2

theorem runsFrom_expand : ∀ (r : List Nat) (cur n : Nat),
    expand (runsFrom cur n r) = List.replicate n cur ++ r := by
  intro r
  induction r with
  | nil => intro cur n; simp [runsFrom]
  | cons x r ih =>
    intro cur n
    unfold runsFrom
    by_cases h : cur ≠ x
    · rw [if_pos h, expand_cons, ih]
      simp
    · rw [if_neg h, ih]
      have : cur = x := by simpa using h
      subst this
      rw [List.replicate_succ', List.append_assoc]
      rfl

theorem runsFrom_head : ∀ (r : List Nat) (cur n : Nat), ∃ m rs, runsFrom cur n r = (m, cur) :: rs ∧ n ≤ m := by
  intro r
  induction r with
  | nil => intro cur n; exact ⟨n, [], rfl, Nat.le_refl n⟩
  | cons x r ih =>
    intro cur n
    unfold runsFrom
    by_cases h : cur ≠ x
    · rw [if_pos h]; exact ⟨n, _, rfl, Nat.le_refl n⟩
    · rw [if_neg h]
      obtain ⟨m, rs, h1, h2⟩ := ih cur (n + 1)
      exact ⟨m, rs, h1, by omega⟩

theorem runsFrom_canonical : ∀ (r : List Nat) (cur n : Nat), 0 < n → Canonical (runsFrom cur n r) := by
  intro r
  induction r with
  | nil =>
    intro cur n hn
    exact ⟨by simpa [runsFrom] using hn, by intro i a b _ hb; simp [runsFrom] at hb⟩
  | cons x r ih =>
    intro cur n hn
    unfold runsFrom
    by_cases h : cur ≠ x
    · rw [if_pos h]
      obtain ⟨i1, i2⟩ := ih x 1 (by omega)
      obtain ⟨m, rs, h1, _⟩ := runsFrom_head r x 1
      refine ⟨?_, ?_⟩
      · intro y hy
        rcases List.mem_cons.mp hy with rfl | hy
        · exact hn
        · exact i1 y hy
      · intro i a b ha hb
        cases i with
        | zero =>
          simp at ha
          rw [h1] at hb
          simp at hb
          rw [← ha, ← hb]
          exact h
        | succ i => exact i2 i a b (by simpa using ha) (by simpa using hb)
    · rw [if_neg h]
      exact ih cur (n + 1) (by omega)

theorem runsFrom_length : ∀ (r : List Nat) (cur n : Nat), (runsFrom cur n r).length = countFrom cur r := by
  intro r
  induction r with
  | nil => intro cur n; rfl
  | cons x r ih =>
    intro cur n
    unfold runsFrom countFrom
    by_cases h : cur ≠ x
    · rw [if_pos h, if_pos h, List.length_cons, ih]; omega
    · rw [if_neg h, if_neg h, ih]
      have : cur = x := by simpa using h
      rw [this]; omega

theorem countFrom_le : ∀ (r : List Nat) (cur : Nat), countFrom cur r ≤ r.length + 1 := by
  intro r
  induction r with
  | nil => intro cur; simp [countFrom]
  | cons x r ih =>
    intro cur
    have := ih x
    unfold countFrom
    simp only [List.length_cons]
    split <;> omega

/-- Grouping type, optional parameter, entry count, and `(sample count, group)` entries. -/
def layout (version groupingType param : Nat) (rs : List (Nat × Nat)) : Bytes :=
  fullBox (fcc 's' 'b' 'g' 'p') version 0 (be 4 groupingType ++ ((if version = 1 then be 4 param else []) ++
    (be 4 rs.length ++ rs.flatMap fun e => be 4 e.1 ++ be 4 e.2)))

theorem getRuns_parses {junk : Nat → Nat} : ∀ (rs : List (Nat × Nat)) (t : Sbgp) (L : List Nat), Pre t L →
    (L ++ expand rs).length < 1073741824 → (∀ e ∈ rs, e.2 < 4294967296) →
    ∃ t', Pre t' (L ++ expand rs) ∧
      Parses (getRuns junk rs.length t L.length) (rs.flatMap fun e => be 4 e.1 ++ be 4 e.2)
        (t', (L ++ expand rs).length) := by
  intro rs
  induction rs with
  | nil =>
    intro t L h _ _
    exact ⟨t, by simpa using h, by simpa [getRuns] using parses_pure (t, L.length)⟩
  | cons e rs ih =>
    intro t L h hlen hval
    have hlen' : ((L ++ List.replicate e.1 e.2) ++ expand rs).length < 1073741824 := by
      rw [expand_cons, ← List.append_assoc] at hlen; exact hlen
    have hl2 := hlen'
    rw [List.length_append, List.length_append, List.length_replicate] at hl2
    obtain ⟨t1, h1, h2, _⟩ := append_pre (junk := junk) h (List.replicate e.1 e.2) (by
      rw [List.length_replicate]; omega)
    obtain ⟨t', g1, g2⟩ := ih t1 _ h2 hlen' fun x hx => hval x (by simp [hx])
    refine ⟨t', by rw [expand_cons, ← List.append_assoc]; exact g1, ?_⟩
    rw [List.flatMap_cons, List.append_assoc, expand_cons, ← List.append_assoc L]
    simp only [List.length_cons, getRuns]
    refine (parses_get32' (by omega)).bind ((parses_get32' (hval e (by simp))).bind ?_)
    have hl : Parses (P.lift (append junk t L.length (List.replicate e.1 e.2))) [] t1 := by
      intro r k
      simp [P.lift, h1]
    have e1 : (L.length + e.1) % 4294967296 = (L ++ List.replicate e.1 e.2).length := by
      rw [List.length_append, List.length_replicate]; omega
    refine Parses.bind (x := []) hl ?_
    rw [e1]
    exact g2

theorem round_trip (junk : Nat → Nat) (version groupingType param : Nat) (L : List Nat) (hv : version < 256)
    (hg : groupingType < 4294967296) (hp : param < 4294967296) (h0 : L ≠ []) (hn : L.length < 268435456)
    (hL : ∀ g ∈ L, g < 4294967296) :
    ∃ rs t', expand rs = L ∧ Canonical rs ∧ Rep t' L ∧
      BoxRoundTrip (calcSize version L) (serialize version groupingType param L) (parseBody junk)
        ((version, 0), groupingType, (if version = 1 then param else 0), t')
        (layout version groupingType param rs) := by
  obtain ⟨x, r, rfl⟩ : ∃ x r, L = x :: r := by
    cases L with
    | nil => exact absurd rfl h0
    | cons a b => exact ⟨a, b, rfl⟩
  have hexp : expand (runs (x :: r)) = x :: r := by
    show expand (runsFrom x 1 r) = _
    rw [runsFrom_expand]; rfl
  have hcnt : (runs (x :: r)).length = entryCount (x :: r) := runsFrom_length r x 1
  have hle : entryCount (x :: r) ≤ (x :: r).length := countFrom_le r x
  have hval : ∀ e ∈ runs (x :: r), e.2 < 4294967296 := by
    intro e he
    apply hL
    rw [← hexp]
    unfold expand
    rw [List.mem_flatMap]
    refine ⟨e, he, ?_⟩
    rw [List.mem_replicate]
    have := (runsFrom_canonical r x 1 (by omega)).1 e he
    exact ⟨by omega, rfl⟩
  obtain ⟨t', g1, g2⟩ := getRuns_parses (junk := junk) (runs (x :: r)) (create false) [] ⟨rfl, rfl⟩
    (by rw [hexp, List.nil_append]; omega) hval
  rw [List.nil_append, hexp] at g1 g2
  refine ⟨runs (x :: r), { t' with count := (x :: r).length }, hexp, runsFrom_canonical r x 1 (by omega),
    ⟨rfl, g1.alloc, g1.cells⟩, ?_⟩
  have hlen : ((runs (x :: r)).flatMap fun e => be 4 e.1 ++ be 4 e.2).length = 8 * (runs (x :: r)).length :=
    flatMap_length_const _ (by simp)
  unfold serialize layout
  have hsz : calcSize version (x :: r) = 20 + 8 * entryCount (x :: r) + (if version = 1 then 4 else 0) := by
    unfold calcSize; split <;> omega
  have hplen : (if version = 1 then be 4 param else []).length = if version = 1 then 4 else 0 := by
    split <;> simp
  refine BoxRoundTrip.ofFull ?_ ?_ (by rw [List.length_append, List.length_append, List.length_append,
      be_length, be_length, hplen, hlen, hsz, hcnt]; omega) (by rw [hsz]; split <;> omega) (by decide) (by decide)
  · refine (emits_put32 _).then ?_
    refine Emits.then ?_ ?_
    · split
      · exact emits_put32 _
      · exact emits_skip
    rw [← hcnt, if_pos rfl]
    refine (emits_put32 _).then ?_
    have := (Emits.each (f := fun e : Nat × Nat => put32 e.1 ;; put32 e.2)
      (g := fun e => be 4 e.1 ++ be 4 e.2) (runs (x :: r))
      fun e _ => (emits_put32 e.1).seq (emits_put32 e.2)).then (emits_skip.then emitsFull_assert)
    simpa using this
  · apply Parses.at
    unfold parseBody
    refine (parses_versionFlags hv (by omega)).bind ((parses_get32' hg).bind ?_)
    have hparam : Parses (if version = 1 then get32 else pure 0) (if version = 1 then be 4 param else [])
        (if version = 1 then param else 0) := by
      by_cases h1 : version = 1
      · rw [if_pos h1, if_pos h1, if_pos h1]; exact parses_get32' hp
      · rw [if_neg h1, if_neg h1, if_neg h1]; exact parses_pure _
    refine hparam.bind ((parses_get32' (by omega)).bind ?_)
    refine g2.bind_nil (parses_pure _)

/-- For every history of additions and mappings: no undefined behaviour, and the group reported for
every sample (numbered from 1) is the one it was last mapped to, 0 if none or if there is no such
sample. With at least one sample, the mapping is written as run-length entries — no empty ones,
neighbours different — that stand for it, and the parsed atom reports the same groups. -/
theorem c22_groups (junk : Nat → Nat) (version groupingType param : Nat) (ops : List Op) (L : List Nat) (frag : Bool)
    (hL : L = ops.foldl Op.apply []) (hops : AllValid [] ops) :
    ∃ t, runAll step (create frag) ops = .ok t ∧ (∀ n, getMap t (n + 1) = .ok (L.getD n 0)) ∧
      (L ≠ [] → used t = .ok L) ∧
      (L ≠ [] → (∀ g ∈ L, g < 4294967296) → version < 256 → groupingType < 4294967296 → param < 4294967296 →
        ∃ rs t', expand rs = L ∧ Canonical rs ∧ (∀ n, getMap t' (n + 1) = .ok (L.getD n 0)) ∧
          BoxRoundTrip (calcSize version L) (serialize version groupingType param L) (parseBody junk)
            ((version, 0), groupingType, (if version = 1 then param else 0), t')
            (layout version groupingType param rs)) := by
  subst hL
  obtain ⟨t, h1, h2, h3⟩ := run_rep ops (create frag) [] (rep_create frag) (by simp) hops
  refine ⟨t, h1, h2.get, ?_, ?_⟩
  · intro h0
    have := List.length_pos_iff.mpr h0
    have hle := h2.le
    unfold used
    rw [h2.count, Nat.max_eq_left (by omega), if_pos hle, h2.cells]
  · intro h0 hv1 hv hg hp
    obtain ⟨rs, t', g1, g2, g3, g4⟩ := round_trip junk version groupingType param _ hv hg hp h0 h3 hv1
    exact ⟨rs, t', g1, g2, g3.get, g4⟩

example : [Op.add 4 (fun _ => 9), .map 3 (-2) 2, .map 1 0 1].foldl Op.apply [] = [1, 0, 3, 3] := by decide

example : runs [1, 0, 3, 3] = [(1, 1), (1, 0), (2, 3)] := by decide

/-- Without any sample the serializer reads cell 0 of an array that was never allocated. -/
theorem c22_no_samples : used (create false) = .ub := by decide

/-! ### C47 -/

/-- Specification: all samples (from 1) mapped to group `g`, in order. -/
def samplesOf (g : Nat) (L : List Nat) : List Nat :=
  (List.range L.length).filterMap fun i => if L[i]? = some g then some (i + 1) else none

/-- Full statement, refuted by `c47_only_last_of_run`: `sampleNumbers g L = samplesOf g L`. It holds
for the samples of a group that are never neighbours; in general the library reports exactly the last
sample of each run of neighbours. -/
theorem c47_last_of_each_run_partial (g : Nat) (L : List Nat) :
    ∀ n, n ∈ sampleNumbers g L ↔ n ∈ samplesOf g L ∧ n + 1 ∉ samplesOf g L := by
  have key : ∀ (r : List Nat) (i cur n : Nat), n ∈ numbersFrom g i cur r ↔
      ∃ k, n = i + k ∧ (cur :: r)[k]? = some g ∧ (cur :: r)[k + 1]? ≠ some g := by
    intro r
    induction r with
    | nil =>
      intro i cur n
      unfold numbersFrom
      constructor
      · intro h
        by_cases hc : cur = g
        · rw [if_pos hc] at h
          simp at h
          exact ⟨0, by omega, by simp [hc], by simp⟩
        · rw [if_neg hc] at h; simp at h
      · rintro ⟨k, rfl, h1, h2⟩
        have hk : k = 0 := by
          have := (List.getElem?_eq_some_iff.mp h1).1
          simp at this; exact this
        subst hk
        have hc : cur = g := by simpa using h1
        rw [if_pos hc]; simp
    | cons x r ih =>
      intro i cur n
      unfold numbersFrom
      rw [List.mem_append, ih]
      constructor
      · rintro (h | ⟨k, rfl, h1, h2⟩)
        · by_cases hc : cur ≠ x ∧ cur = g
          · rw [if_pos hc] at h
            simp at h
            refine ⟨0, by omega, by simp [hc.2], ?_⟩
            simp only [Nat.zero_add, List.getElem?_cons_succ, List.getElem?_cons_zero, ne_eq, Option.some.injEq]
            intro hx
            exact hc.1 (by rw [hc.2, hx])
          · rw [if_neg hc] at h; simp at h
        · exact ⟨k + 1, by omega, by simpa using h1, by simpa using h2⟩
      · rintro ⟨k, rfl, h1, h2⟩
        cases k with
        | zero =>
          left
          have hc : cur = g := by simpa using h1
          have hx : x ≠ g := by simpa using h2
          rw [if_pos ⟨by rw [hc]; exact fun h => hx h.symm, hc⟩]
          simp
        | succ k => exact Or.inr ⟨k, by omega, by simpa using h1, by simpa using h2⟩
  have hmem : ∀ n, n ∈ samplesOf g L ↔ ∃ k, n = k + 1 ∧ L[k]? = some g := by
    intro n
    unfold samplesOf
    rw [List.mem_filterMap]
    constructor
    · rintro ⟨k, _, hk⟩
      by_cases h : L[k]? = some g
      · rw [if_pos h] at hk
        exact ⟨k, by simpa using hk.symm, h⟩
      · rw [if_neg h] at hk; cases hk
    · rintro ⟨k, rfl, hk⟩
      refine ⟨k, ?_, by rw [if_pos hk]⟩
      have := (List.getElem?_eq_some_iff.mp hk).1
      simpa using this
  intro n
  rw [hmem, hmem]
  cases L with
  | nil => simp [sampleNumbers]
  | cons x r =>
    rw [sampleNumbers, key]
    constructor
    · rintro ⟨k, rfl, h1, h2⟩
      refine ⟨⟨k, by omega, h1⟩, ?_⟩
      rintro ⟨m, hm, h3⟩
      have : m = k + 1 := by omega
      subst this
      exact h2 h3
    · rintro ⟨⟨k, rfl, h1⟩, h2⟩
      exact ⟨k, by omega, h1, fun h3 => h2 ⟨k + 1, rfl, h3⟩⟩

/-- Samples 2, 3 and 5 are in group 7; samples 3 and 5 are reported. -/
theorem c47_only_last_of_run : samplesOf 7 [1, 7, 7, 0, 7] = [2, 3, 5] ∧ sampleNumbers 7 [1, 7, 7, 0, 7] = [3, 5] := by
  decide

end Verif.Sbgp
