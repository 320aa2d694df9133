import Verif.Model.Cslg
import Verif.Props.C17
import Verif.Lemmas.Stts

/-!
# C67 — the composition-to-decode box sums up the composition times of a track

Full property: when a track uses signed composition offsets, its `cslg` box gives the least and the greatest
offset, a shift that makes all offsets non-negative, the least composition time and the end of the last
composed sample; the box survives being written and parsed; and the properties set for the fragments of a
track are those found for it. The code gives the greatest composition time in place of the end
(`c67_end_time`), loses its place when a batch has no offsets (`c67_gap`), dereferences NULL when the flag is
set after the first offsets (`c67_flag_late`), and cannot find the properties of the fragments again
(`c67_props_again`).
-/

namespace Verif.Cslg

/-! ## Specification -/

/-- One addition of samples, with their durations and offsets. -/
structure Add where
  durs : Batch
  offs : Batch

/-- There are samples, each with a duration and an offset that are 32-bit numbers; the durations are
positive as `s32`, and no offset is the least `s32`. -/
structure Add.Valid (a : Add) : Prop where
  pos : 0 < a.durs.count
  count : a.offs.count = a.durs.count
  dur : ∀ d ∈ a.durs.values, d < 2147483648
  off : ∀ o ∈ a.offs.values, o < 4294967296 ∧ o ≠ 2147483648

def addBatch (s : St) (a : Add) : Res St := tableAdd s a.durs.count a.durs.array (some a.offs.array)

/-- Duration and signed offset of each sample of a history. -/
def samples (as : List Add) : List (Int × Int) :=
  as.flatMap fun a => List.zip (a.durs.values.map s32) (a.offs.values.map s32)

/-- Composition times of samples, the first of which is decoded at `t`. -/
def times : Int → List (Int × Int) → List Int
  | _, [] => []
  | t, (d, o) :: rest => (t + o) :: times (t + d) rest

/-- Ends of their composition. -/
def ends : Int → List (Int × Int) → List Int
  | _, [] => []
  | t, (d, o) :: rest => (t + o + d) :: ends (t + d) rest

def IsMin (m : Int) (xs : List Int) : Prop := m ∈ xs ∧ ∀ x ∈ xs, m ≤ x
def IsMax (m : Int) (xs : List Int) : Prop := m ∈ xs ∧ ∀ x ∈ xs, x ≤ m

instance (m : Int) (xs : List Int) : Decidable (IsMin m xs) := inferInstanceAs (Decidable (_ ∧ _))
instance (m : Int) (xs : List Int) : Decidable (IsMax m xs) := inferInstanceAs (Decidable (_ ∧ _))

/-- The end of the sample composed last. -/
def IsEnd (e : Int) (L : List (Int × Int)) : Prop :=
  ∃ (k : Nat) (c : Int), (times 0 L)[k]? = some c ∧ (ends 0 L)[k]? = some e ∧ IsMax c (times 0 L)

/-- What the box says about samples, apart from the end. -/
structure Sums (c : Cslg) (L : List (Int × Int)) : Prop where
  least : IsMin c.least (L.map (·.2))
  greatest : IsMax c.greatest (L.map (·.2))
  start : IsMin c.start (times 0 L)
  last : IsMax c.stop (times 0 L)
  /-- The shift makes every offset non-negative … -/
  shift : ∀ o ∈ L.map (·.2), 0 ≤ o + c.shift
  /-- … and is the least such. -/
  tight : c.shift = 0 ∨ ∃ o ∈ L.map (·.2), o + c.shift = 0

/-! ## Lemmas -/

theorem pick_ok {n : Nat} {b : Batch} (h : b.count = n) : pick n b.array = b.values.map s32 := by
  cases b with
  | uniform m v =>
    simp only [Batch.count] at h
    subst h
    simp [Batch.array, Batch.values, pick]
  | each vs =>
    simp only [Batch.count] at h
    simp only [Batch.array, Batch.values]
    unfold pick
    split
    · simp at h; subst h; rfl
    · rfl

theorem values_length (b : Batch) : b.values.length = b.count := by
  cases b <;> simp [Batch.values, Batch.count]

theorem array_length (b : Batch) : b.array.length = 1 ∨ b.array.length = b.count := by
  cases b <;> simp [Batch.array, Batch.count]

def sumD (L : List (Int × Int)) : Int := (L.map (·.1)).sum

theorem times_append : ∀ (L M : List (Int × Int)) (t : Int),
    times t (L ++ M) = times t L ++ times (t + sumD L) M := by
  intro L
  induction L with
  | nil => intro M t; simp [times, sumD]
  | cons x L ih =>
    intro M t
    obtain ⟨d, o⟩ := x
    simp only [List.cons_append, times, ih, sumD, List.map_cons, List.sum_cons]
    rw [show t + (d + (L.map (·.1)).sum) = t + d + (L.map (·.1)).sum by omega]

/-- The box after samples `L`, of which there may be none. -/
structure Rep (c : Cslg) (L : List (Int × Int)) : Prop where
  total : c.total = sumD L
  least : IsMin c.least (2147483647 :: L.map (·.2))
  greatest : IsMax c.greatest (-2147483648 :: L.map (·.2))
  start : IsMin c.start (2147483647 :: times 0 L)
  last : IsMax c.stop (-2147483648 :: times 0 L)
  shift : c.shift = if c.least < 0 then -c.least else 0

theorem rep_create : Rep create [] := by
  refine ⟨rfl, ?_, ?_, ?_, ?_, rfl⟩ <;> decide

theorem IsMin.snoc {m : Int} {xs : List Int} (h : IsMin m xs) (x : Int) :
    IsMin (if x < m then x else m) (xs ++ [x]) := by
  obtain ⟨h1, h2⟩ := h
  by_cases hx : x < m
  · rw [if_pos hx]
    refine ⟨by simp, fun y hy => ?_⟩
    rcases List.mem_append.mp hy with hy | hy
    · have := h2 y hy; omega
    · rw [List.mem_singleton.mp hy]; exact Int.le_refl _
  · rw [if_neg hx]
    refine ⟨List.mem_append_left _ h1, fun y hy => ?_⟩
    rcases List.mem_append.mp hy with hy | hy
    · exact h2 y hy
    · rw [List.mem_singleton.mp hy]; omega

theorem IsMax.snoc {m : Int} {xs : List Int} (h : IsMax m xs) (x : Int) :
    IsMax (if x > m then x else m) (xs ++ [x]) := by
  obtain ⟨h1, h2⟩ := h
  by_cases hx : x > m
  · rw [if_pos hx]
    refine ⟨by simp, fun y hy => ?_⟩
    rcases List.mem_append.mp hy with hy | hy
    · have := h2 y hy; omega
    · rw [List.mem_singleton.mp hy]; exact Int.le_refl _
  · rw [if_neg hx]
    refine ⟨List.mem_append_left _ h1, fun y hy => ?_⟩
    rcases List.mem_append.mp hy with hy | hy
    · exact h2 y hy
    · rw [List.mem_singleton.mp hy]; omega

/-- What the loop needs to know of a sample: its offset and time are `s32`, the offset not the least one. -/
def Fits (o t : Int) : Prop :=
  -2147483648 < o ∧ o < 2147483648 ∧ -2147483648 ≤ t ∧ t < 2147483648

theorem step_ok {c : Cslg} {L : List (Int × Int)} (h : Rep c L) (hL : ∀ o ∈ L.map (·.2), -2147483648 < o)
    {d o : Int} (hf : Fits o (sumD L + o)) :
    ∃ c', step c d o = .ok c' ∧ Rep c' (L ++ [(d, o)]) := by
  obtain ⟨f1, f2, f3, f4⟩ := hf
  have hs : s32 (u32i (c.total + o)) = sumD L + o := by rw [h.total]; exact s32_u32i f3 f4
  have hleast : c.least ≠ -2147483648 := by
    intro e
    rcases List.mem_cons.mp h.least.1 with h' | h'
    · rw [e] at h'; omega
    · have := hL _ h'; omega
  unfold step
  dsimp only
  have hne : ¬ (if o < c.least then o else c.least) = -2147483648 := by split <;> omega
  rw [if_neg hne, hs, h.total]
  have ht : times 0 (L ++ [(d, o)]) = times 0 L ++ [sumD L + o] := by
    rw [times_append]; simp [times]
  refine ⟨_, rfl, ?_, ?_, ?_, ?_, ?_, ?_⟩
  · simp [sumD]
  · simpa using h.least.snoc o
  · simpa using h.greatest.snoc o
  · rw [ht]; simpa using h.start.snoc (sumD L + o)
  · rw [ht]; simpa using h.last.snoc (sumD L + o)
  · have hsh := h.shift
    dsimp only
    by_cases h0 : (if o < c.least then o else c.least) < 0
    · rw [if_pos h0, if_pos h0]; omega
    · rw [if_neg h0, if_neg h0, hsh]
      rw [if_neg]
      split at h0 <;> omega

theorem loop_ok : ∀ (M L : List (Int × Int)) (c : Cslg), Rep c L →
    (∀ o ∈ (L ++ M).map (·.2), -2147483648 < o ∧ o < 2147483648) →
    (∀ t ∈ times 0 (L ++ M), -2147483648 ≤ t ∧ t < 2147483648) →
    ∃ c', loop M c = .ok c' ∧ Rep c' (L ++ M) := by
  intro M
  induction M with
  | nil => intro L c h _ _; exact ⟨c, rfl, by simpa using h⟩
  | cons x M ih =>
    intro L c h ho ht
    obtain ⟨d, o⟩ := x
    have o1 := ho o (by simp)
    have t1 := ht (sumD L + o) (by rw [times_append]; simp [times])
    obtain ⟨c', g1, g2⟩ := step_ok h (fun x hx => (ho x (by simp at hx ⊢; exact .inl hx)).1) (d := d) (o := o)
      ⟨o1.1, o1.2, t1.1, t1.2⟩
    obtain ⟨c'', k1, k2⟩ := ih (L ++ [(d, o)]) c' g2 (by simpa using ho) (by simpa using ht)
    refine ⟨c'', ?_, by simpa using k2⟩
    simp only [loop, g1, Res.bind]
    exact k1

theorem Rep.sums {c : Cslg} {L : List (Int × Int)} (h : Rep c L) (hne : L ≠ [])
    (ho : ∀ o ∈ L.map (·.2), -2147483648 < o ∧ o < 2147483648)
    (ht : ∀ t ∈ times 0 L, -2147483648 ≤ t ∧ t < 2147483648) : Sums c L := by
  obtain ⟨⟨d, o⟩, L', rfl⟩ := List.exists_cons_of_ne_nil hne
  have min_tail : ∀ {m x : Int} {xs : List Int}, x ∈ xs → IsMin m (2147483647 :: xs) →
      (∀ y ∈ xs, y < 2147483648) → IsMin m xs := by
    intro m x xs hx ⟨h1, h2⟩ hb
    refine ⟨?_, fun y hy => h2 y (by simp [hy])⟩
    rcases List.mem_cons.mp h1 with h1 | h1
    · have := h2 x (by simp [hx])
      have := hb x hx
      have : m = x := by omega
      rw [this]; exact hx
    · exact h1
  have max_tail : ∀ {m x : Int} {xs : List Int}, x ∈ xs → IsMax m (-2147483648 :: xs) →
      (∀ y ∈ xs, -2147483648 ≤ y) → IsMax m xs := by
    intro m x xs hx ⟨h1, h2⟩ hb
    refine ⟨?_, fun y hy => h2 y (by simp [hy])⟩
    rcases List.mem_cons.mp h1 with h1 | h1
    · have := h2 x (by simp [hx])
      have := hb x hx
      have : m = x := by omega
      rw [this]; exact hx
    · exact h1
  have hmin := min_tail (x := o) (by simp) h.least fun y hy => (ho y hy).2
  refine ⟨hmin, max_tail (x := o) (by simp) h.greatest fun y hy => by have := ho y hy; omega,
    min_tail (x := 0 + o) (by simp [times]) h.start fun y hy => (ht y hy).2,
    max_tail (x := 0 + o) (by simp [times]) h.last fun y hy => (ht y hy).1, ?_, ?_⟩
  · intro x hx
    have := hmin.2 x hx
    rw [h.shift]
    split <;> omega
  · rw [h.shift]
    by_cases h0 : c.least < 0
    · rw [if_pos h0]
      exact .inr ⟨c.least, hmin.1, by omega⟩
    · rw [if_neg h0]; exact .inl rfl

/-- The state after additions with offsets, the flag having been set first. -/
structure Inv (s : St) (as : List Add) : Prop where
  samples : s.samples = (samples as).length
  stts : expand s.stts = as.flatMap fun a => a.durs.values
  signed : s.signed = true
  boxes : as = [] ∧ s.ctts = none ∨
    ∃ t c, s.ctts = some t ∧ s.version = 1 ∧ s.cslg = some c ∧
      Ctts.Rep t (as.flatMap fun a => a.offs.values) ∧ Rep c (Cslg.samples as)

theorem samples_append (as bs : List Add) : samples (as ++ bs) = samples as ++ samples bs := by
  simp [samples]

theorem samples_length : ∀ (as : List Add), (∀ a ∈ as, a.Valid) →
    (samples as).length = (as.flatMap fun a => a.offs.values).length ∧
    (samples as).length = (as.flatMap fun a => a.durs.values).length := by
  intro as
  induction as with
  | nil => intro _; exact ⟨rfl, rfl⟩
  | cons a as ih =>
    intro hv
    obtain ⟨i1, i2⟩ := ih fun x hx => hv x (by simp [hx])
    have ha := hv a (by simp)
    have e : samples (a :: as) = samples [a] ++ samples as := by simp [samples]
    have l : (samples [a]).length = a.durs.count := by
      simp [samples, values_length, ha.count]
    rw [e, List.length_append, l, List.flatMap_cons, List.flatMap_cons, List.length_append, List.length_append,
      ← i1, ← i2, values_length, values_length, ha.count]
    exact ⟨rfl, rfl⟩

theorem s32_bounds {n : Nat} (h : n < 4294967296) : -2147483648 ≤ s32 n ∧ s32 n < 2147483648 := by
  unfold s32; split <;> omega

theorem offs_fit {as : List Add} (hv : ∀ a ∈ as, a.Valid) :
    ∀ o ∈ (samples as).map (·.2), -2147483648 < o ∧ o < 2147483648 := by
  intro o ho
  simp only [samples, List.mem_map, List.mem_flatMap] at ho
  obtain ⟨⟨d, o'⟩, ⟨a, ha, hz⟩, rfl⟩ := ho
  have hm := (List.of_mem_zip hz).2
  obtain ⟨v, hv', rfl⟩ := List.mem_map.mp hm
  obtain ⟨h1, h2⟩ := (hv a ha).off v hv'
  show -2147483648 < s32 v ∧ s32 v < 2147483648
  unfold s32
  split <;> omega

theorem addBatch_ok {s : St} {as : List Add} (h : Inv s as) {a : Add} (hv : ∀ x ∈ as ++ [a], x.Valid)
    (hl : (samples (as ++ [a])).length < 2147483648)
    (ht : ∀ t ∈ times 0 (samples (as ++ [a])), -2147483648 ≤ t ∧ t < 2147483648) :
    ∃ s', addBatch s a = .ok s' ∧ Inv s' (as ++ [a]) ∧ s'.cslg ≠ none := by
  have ha := hv a (by simp)
  have hva : ∀ x ∈ as, x.Valid := fun x hx => hv x (by simp [hx])
  obtain ⟨l1, l2⟩ := samples_length as hva
  have lone : (samples [a]).length = a.durs.count := by
    simp [samples, values_length, ha.count]
  rw [samples_append, List.length_append, lone] at hl
  -- durations
  obtain ⟨es, d1, -, d3⟩ := Stts.addSamples_ok (es := s.stts) (n := a.durs.count) (durations := a.durs.array)
    (by
      rcases array_length a.durs with h' | h'
      · exact .inl h'
      · refine .inr ⟨by omega, ?_⟩
        intro e; rw [e] at h'; have := ha.pos; simp at h'; omega)
    (by rw [h.stts, ← l2]; omega)
  have hbd : Stts.batchDurations a.durs.count a.durs.array = a.durs.values := by
    unfold Stts.batchDurations
    cases hb : a.durs with
    | uniform n v => simp [Batch.array, Batch.count, Batch.values]
    | each vs =>
      show (if vs.length = 1 then List.replicate vs.length (vs.headD 0) else List.take vs.length vs) = vs
      by_cases h1 : vs.length = 1
      · rw [if_pos h1]
        match vs, h1 with
        | [v], _ => rfl
      · rw [if_neg h1, List.take_length]
  rw [hbd] at d3
  -- the boxes
  have hboxes : ∃ t c, makeBoxes s = ⟨s.samples, s.stts, some t, 1, some c, true⟩ ∧
      Ctts.Rep t (as.flatMap fun a => a.offs.values) ∧ Rep c (samples as) := by
    rcases h.boxes with ⟨e, hn⟩ | ⟨t, c, e1, e2, e3, e4, e5⟩
    · subst e
      refine ⟨Ctts.create, create, ?_, ⟨rfl, rfl, by simp [Ctts.create]⟩, rep_create⟩
      unfold makeBoxes
      rw [hn]
      simp only [h.signed, if_true]
    · refine ⟨t, c, ?_, e4, e5⟩
      unfold makeBoxes
      rw [e1]
      obtain ⟨sa, st, ct, ve, cs, sg⟩ := s
      dsimp only at e1 e2 e3
      have := h.signed
      dsimp only at this
      subst e1 e2 e3 this
      rfl
  obtain ⟨t, c, hm, hR, hC⟩ := hboxes
  have hso : s.samples = (as.flatMap fun a => a.offs.values).length := by rw [h.samples, l1]
  -- offsets
  have hoff : Ctts.offsetsFor a.durs.count a.offs.array = .ok a.offs.values :=
    Ctts.offsetsFor_ok (a := ⟨a.durs.count, some a.offs⟩) (b := a.offs)
      ⟨ha.pos, fun b hb => by
        cases hb
        refine ⟨ha.count, ?_⟩
        intro e
        have h1 := array_length a.offs
        have h2 := ha.pos
        have h3 := ha.count
        rw [e, List.length_nil] at h1
        omega⟩ rfl
  have hsm : (s.samples + 1) % 4294967296 = s.samples + 1 := by rw [h.samples]; omega
  have hpad : Ctts.pad t (s.samples + 1) = .ok t := by
    unfold Ctts.pad
    have := hR.final
    by_cases h0 : t.final ≠ 0
    · rw [if_pos h0, if_neg (by omega), if_pos (by omega), show s.samples + 1 - t.final - 1 = 0 by omega]
      rfl
    · rw [if_neg h0]
  have hadd : Ctts.addSamples t ((s.samples + 1) % 4294967296) a.durs.count a.offs.array =
      .ok (a.offs.values.foldl Ctts.addSample t) := by
    rw [hsm]
    simp only [Ctts.addSamples, hpad, hoff, Res.bind]
  have hR' := Ctts.addMany_ok a.offs.values hR (by rw [values_length, ha.count, ← l1]; omega)
  -- the summary
  obtain ⟨c', u1, u2⟩ := loop_ok (samples [a]) (samples as) c hC
    (by rw [← samples_append]; exact offs_fit hv) (by rw [← samples_append]; exact ht)
  have hupd : updateFields c a.durs.count a.durs.array a.offs.array = .ok c' := by
    unfold updateFields
    have w1 := array_length a.offs
    have w2 := array_length a.durs
    have w3 := ha.count
    rw [if_neg (by omega), if_neg (by omega), pick_ok rfl, pick_ok ha.count]
    simpa [samples] using u1
  refine ⟨⟨(s.samples + a.durs.count) % 4294967296, es, some (a.offs.values.foldl Ctts.addSample t), 1,
    some c', true⟩, ?_, ⟨?_, ?_, rfl, .inr ⟨_, _, rfl, rfl, rfl, ?_, ?_⟩⟩, by simp⟩
  · unfold addBatch tableAdd
    simp only [hm, d1, hadd, hupd, Res.bind, Option.getD_some, if_true]
  · rw [samples_append, List.length_append, lone]
    dsimp only
    rw [h.samples]; omega
  · simp [d3, h.stts]
  · simpa using hR'
  · rw [samples_append]; exact u2

theorem times_prefix {L M : List (Int × Int)} {p : Int → Prop} (h : ∀ t ∈ times 0 (L ++ M), p t) :
    ∀ t ∈ times 0 L, p t := fun t ht => h t (by rw [times_append]; exact List.mem_append_left _ ht)

theorem runAll_ok : ∀ (bs : List Add) (s : St) (as : List Add), Inv s as →
    (∀ x ∈ as ++ bs, x.Valid) → (samples (as ++ bs)).length < 2147483648 →
    (∀ t ∈ times 0 (samples (as ++ bs)), -2147483648 ≤ t ∧ t < 2147483648) →
    ∃ s', runAll addBatch s bs = .ok s' ∧ Inv s' (as ++ bs) := by
  intro bs
  induction bs with
  | nil => intro s as h _ _ _; exact ⟨s, rfl, by simpa using h⟩
  | cons b bs ih =>
    intro s as h hv hl ht
    have e : as ++ b :: bs = (as ++ [b]) ++ bs := by simp
    rw [e] at hv hl ht
    rw [samples_append] at hl ht
    obtain ⟨s', g1, g2, -⟩ := addBatch_ok h (a := b) (fun x hx => hv x (List.mem_append_left _ hx))
      (by rw [List.length_append] at hl; omega) (times_prefix ht)
    obtain ⟨s'', k1, k2⟩ := ih s' (as ++ [b]) g2 hv (by rw [samples_append]; exact hl)
      (by rw [samples_append]; exact ht)
    refine ⟨s'', ?_, by rw [e]; exact k2⟩
    simp only [runAll, g1, Res.bind]
    exact k1

/-! ## Theorems -/

/-- **C67.** After any history of additions to an empty track whose flag was set first, all with offsets, the
`cslg` box sums up the offsets and composition times of all samples. Missing from the full property: the end,
and the cases of the theorems below. -/
theorem c67_sums_partial (as : List Add) (hne : as ≠ []) (hv : ∀ a ∈ as, a.Valid)
    (hl : (samples as).length < 2147483648)
    (ht : ∀ t ∈ times 0 (samples as), -2147483648 ≤ t ∧ t < 2147483648) :
    ∃ s c, runAll addBatch (useSigned empty) as = .ok s ∧ s.cslg = some c ∧ s.version = 1 ∧
      Sums c (samples as) := by
  obtain ⟨s, h1, h2⟩ := runAll_ok as (useSigned empty) [] ⟨rfl, rfl, rfl, .inl ⟨rfl, rfl⟩⟩ hv hl ht
  rw [List.nil_append] at h2
  rcases h2.boxes with ⟨e, -⟩ | ⟨t, c, -, e2, e3, -, e5⟩
  · exact absurd e hne
  · refine ⟨s, c, h1, e3, e2, e5.sums ?_ (offs_fit hv) ht⟩
    intro e
    obtain ⟨a, as', rfl⟩ := List.exists_cons_of_ne_nil hne
    have ha := hv a (by simp)
    have he := congrArg List.length e
    rw [show a :: as' = [a] ++ as' from rfl, samples_append, List.length_append] at he
    have lone : (samples [a]).length = a.durs.count := by simp [samples, values_length, ha.count]
    have hp := ha.pos
    rw [lone, List.length_nil] at he
    omega

/-- The hypotheses can be met: B frames, in two batches, the second with one duration for all. -/
example : let as : List Add := [⟨.each [10, 20, 10], .each [0, 20, 4294967286]⟩,
      ⟨.uniform 2 10, .each [4294967276, 5]⟩]
    samples as = [(10, 0), (20, 20), (10, -10), (10, -20), (10, 5)] ∧
    times 0 (samples as) = [0, 30, 20, 20, 55] ∧
    (∃ s, runAll addBatch (useSigned empty) as = .ok s ∧ s.cslg = some ⟨20, -20, 20, 0, 55, 60⟩) := by
  refine ⟨by decide, by decide, _, rfl, by decide⟩

example : (⟨.each [10, 20, 10], .each [0, 20, 4294967286]⟩ : Add).Valid :=
  ⟨by decide, by decide, by decide, by decide⟩

theorem ends_after : ∀ (L : List (Int × Int)) (t : Int), (∀ x ∈ L, 0 < x.1) → ∀ (k : Nat) (c e : Int),
    (times t L)[k]? = some c → (ends t L)[k]? = some e → c < e := by
  intro L
  induction L with
  | nil => intro t _ k c e h; simp [times] at h
  | cons x L ih =>
    intro t hp k c e h1 h2
    obtain ⟨d, o⟩ := x
    have hd := hp (d, o) (by simp)
    cases k with
    | zero => simp [times, ends] at h1 h2; dsimp only at hd; omega
    | succ k =>
      simp only [times, ends, List.getElem?_cons_succ] at h1 h2
      exact ih _ (fun x hx => hp x (by simp [hx])) k c e h1 h2

/-- Whatever the samples, as long as their durations are positive, the end the box gives is not the end of
the sample composed last: its duration is left out. -/
theorem c67_end_time (as : List Add) (hne : as ≠ []) (hv : ∀ a ∈ as, a.Valid)
    (hd : ∀ x ∈ samples as, 0 < x.1) (hl : (samples as).length < 2147483648)
    (ht : ∀ t ∈ times 0 (samples as), -2147483648 ≤ t ∧ t < 2147483648) :
    ∃ s c, runAll addBatch (useSigned empty) as = .ok s ∧ s.cslg = some c ∧
      ∀ e, IsEnd e (samples as) → c.stop < e := by
  obtain ⟨s, c, h1, h2, -, h4⟩ := c67_sums_partial as hne hv hl ht
  refine ⟨s, c, h1, h2, ?_⟩
  rintro e ⟨k, m, g1, g2, g3⟩
  have := ends_after _ 0 hd k m e g1 g2
  have := g3.2 _ h4.last.1
  omega

example : let as : List Add := [⟨.each [10, 20], .each [0, 5]⟩]
    IsEnd 35 (samples as) ∧ (∀ x ∈ samples as, 0 < x.1) := by
  exact ⟨⟨1, 15, by decide, by decide, by decide⟩, by decide⟩

/-- A batch without offsets between two with them is not counted: the last sample is composed at 30, the box
says 20. -/
theorem c67_gap : ∃ s1 s2 s3 c, tableAdd (useSigned empty) 1 [10] (some [0]) = .ok s1 ∧
    tableAdd s1 1 [10] none = .ok s2 ∧ tableAdd s2 1 [10] (some [10]) = .ok s3 ∧ s3.cslg = some c ∧
    expand s3.stts = [10, 10, 10] ∧ Ctts.offsetOf ⟨s3.samples, s3.ctts⟩ 3 = 10 ∧ c.stop = 20 := by
  refine ⟨_, _, _, _, rfl, rfl, rfl, rfl, ?_, ?_, ?_⟩ <;> decide

/-- When offsets were already added, setting the flag makes the next addition with offsets that has as many
as it needs dereference NULL. -/
theorem c67_flag_late (s : St) (t : Ctts.Ctts) (h1 : s.ctts = some t) (h2 : s.cslg = none) (n : Nat)
    (durs os : List Nat) (es : List (Nat × Nat)) (t' : Ctts.Ctts)
    (h3 : Stts.addSamples s.stts n durs = .ok es)
    (h4 : Ctts.addSamples t w32(s.samples + 1) n os = .ok t') :
    tableAdd (useSigned s) n durs (some os) = .ub := by
  unfold tableAdd
  have hm : makeBoxes (useSigned s) = useSigned s := by
    unfold makeBoxes useSigned
    simp [h1]
  simp only [hm]
  have e1 : (useSigned s).stts = s.stts := rfl
  have e2 : (useSigned s).ctts = some t := h1
  have e3 : (useSigned s).samples = s.samples := rfl
  have e4 : (useSigned s).cslg = none := h2
  have e5 : (useSigned s).signed = true := rfl
  simp only [e1, e2, e3, e4, e5, h3, h4, Option.getD_some, Res.bind, if_true]

/-- Such a state is reached by one addition. -/
theorem c67_flag_late_reached : ∃ s, tableAdd empty 2 [10] (some [0, 5]) = .ok s ∧ s.ctts ≠ none ∧
    s.cslg = none ∧ tableAdd (useSigned s) 1 [10] (some [0]) = .ub := by
  refine ⟨_, rfl, ?_, ?_, ?_⟩ <;> decide

/-- Composition times that are not `s32` values are cut: with two samples of the longest duration before it,
the third has a negative time in the box. -/
theorem c67_long : ∃ s c, runAll addBatch (useSigned empty) [⟨.uniform 3 2147483647, .uniform 3 0⟩] = .ok s ∧
    s.cslg = some c ∧ c.start = 0 ∧ c.stop = -2 := by
  refine ⟨_, _, rfl, rfl, ?_, ?_⟩ <;> decide

/-! ### The box -/

/-- The layout of the box in the standard. -/
def layout (version flags : Nat) (c : Cslg) : Bytes :=
  fullBox (fcc 'c' 's' 'l' 'g') version flags
    (be 4 (u32i c.shift) ++ (be 4 (u32i c.least) ++ (be 4 (u32i c.greatest) ++ (be 4 (u32i c.start) ++
      be 4 (u32i c.stop)))))

/-- All fields are `s32`. -/
structure S32 (c : Cslg) : Prop where
  shift : -2147483648 ≤ c.shift ∧ c.shift < 2147483648
  least : -2147483648 ≤ c.least ∧ c.least < 2147483648
  greatest : -2147483648 ≤ c.greatest ∧ c.greatest < 2147483648
  start : -2147483648 ≤ c.start ∧ c.start < 2147483648
  stop : -2147483648 ≤ c.stop ∧ c.stop < 2147483648

/-- The box is written in its layout and parsed again; only the running total is not kept. -/
theorem c67_box (version flags : Nat) (c : Cslg) (hv : version < 256) (hf : flags < 2 ^ 24) (hc : S32 c) :
    BoxRoundTrip 32 (serialize version flags c) parseBody ((version, flags), { c with total := 0 })
      (layout version flags c) := by
  have ht : typeCslg = fcc 'c' 's' 'l' 'g' := by decide
  unfold layout
  rw [← ht]
  refine BoxRoundTrip.ofFull (type := typeCslg) ?_ ?_ ?_ ?_ (by decide) (by decide)
  · exact (emits_put32 _).then ((emits_put32 _).then ((emits_put32 _).then ((emits_put32 _).then
      ((emits_put32 _).then emitsFull_assert))))
  · unfold parseBody
    refine ((parses_versionFlags hv hf).at _).bind ?_
    refine ((parses_get32' (u32i_lt _)).at _).bind ?_
    refine ((parses_get32' (u32i_lt _)).at _).bind ?_
    refine ((parses_get32' (u32i_lt _)).at _).bind ?_
    refine ((parses_get32' (u32i_lt _)).at _).bind ?_
    refine ((parses_get32' (u32i_lt _)).at _).bind_nil ?_
    refine parsesAt_bytesRead ?_
    rw [if_neg (by simp), s32_u32i hc.shift.1 hc.shift.2, s32_u32i hc.least.1 hc.least.2,
      s32_u32i hc.greatest.1 hc.greatest.2, s32_u32i hc.start.1 hc.start.2, s32_u32i hc.stop.1 hc.stop.2]
    exact (parses_pure _).at _
  · simp only [List.length_append, be_length]
  · decide

example : S32 ⟨20, -20, 20, 0, 55, 60⟩ := by constructor <;> decide

/-! ### Properties of the fragments -/

/-- Track extension properties boxes of a track, in order. -/
def propsOf (m : Mvex) (track : Nat) : List (List Inner) :=
  m.props.filterMap fun b => match b with
    | .trep t ps => if t = track then some ps else none
    | .trex _ => none

/-- The boxes are in the lists `addAtom` puts them in. -/
structure Sorted (m : Mvex) : Prop where
  ext : ∀ b ∈ m.extends_, ∃ t, b = .trex t
  prop : ∀ b ∈ m.props, ∃ t ps, b = .trep t ps

theorem trepLoop_none (track : Nat) (boxes : List Child) (h : ∀ b ∈ boxes, ∃ t, b = .trex t) :
    ∀ n i, trepLoop track boxes n i = none := by
  intro n
  induction n with
  | zero => intro i; rfl
  | succ n ih =>
    intro i
    unfold trepLoop
    cases hb : boxes[i]? with
    | none => rfl
    | some b =>
      obtain ⟨t, rfl⟩ := h b (List.mem_of_getElem? hb)
      exact ih _

/-- However many properties were set before, setting properties adds a box: the ones set before for the same
track are never found. -/
theorem c67_props_again (m : Mvex) (hm : Sorted m) (calls : List (Nat × Cslg)) :
    calls.foldl (fun m x => setProps m x.1 x.2) m =
      ⟨m.extends_, m.props ++ calls.map fun x => .trep x.1 [.cslg x.2]⟩ := by
  induction calls generalizing m with
  | nil => simp
  | cons x calls ih =>
    have h : setProps m x.1 x.2 = ⟨m.extends_, m.props ++ [.trep x.1 [.cslg x.2]]⟩ := by
      unfold setProps getTrep
      rw [trepLoop_none _ _ hm.ext]
      rfl
    have hs : Sorted ⟨m.extends_, m.props ++ [.trep x.1 [.cslg x.2]]⟩ := by
      refine ⟨hm.ext, fun b hb => ?_⟩
      rcases List.mem_append.mp hb with hb | hb
      · exact hm.prop b hb
      · exact ⟨_, _, List.mem_singleton.mp hb⟩
    rw [List.foldl_cons, h, ih _ hs]
    simp

/-- What is set once for a track is what its only box holds; other tracks keep theirs. -/
theorem c67_props_partial (m : Mvex) (hm : Sorted m) (track : Nat) (c : Cslg) (h : propsOf m track = []) :
    propsOf (setProps m track c) track = [[.cslg c]] ∧
    ∀ other, other ≠ track → propsOf (setProps m track c) other = propsOf m other := by
  have e := c67_props_again m hm [(track, c)]
  simp only [List.foldl_cons, List.foldl_nil] at e
  rw [e]
  constructor
  · unfold propsOf at h ⊢
    rw [List.filterMap_append, h]
    simp
  · intro other ho
    unfold propsOf
    rw [List.filterMap_append]
    simp [Ne.symm ho]

example : Sorted ⟨[.trex 1, .trex 2], [.trep 1 [.cslg create]]⟩ ∧
    propsOf ⟨[.trex 1, .trex 2], [.trep 1 [.cslg create]]⟩ 2 = [] := by
  refine ⟨⟨by simp, by simp⟩, by decide⟩

end Verif.Cslg
