import Verif.Lemmas.Csgp
import Verif.Lemmas.Codec
import Verif.Props.C22

/-!
# C23 — the compact sample-to-group form stands for the mapping it was computed from
-/

namespace Verif.Csgp

/-- What a compact form stands for: each entry (pattern length, sample count) takes its pattern from
the front of the index array and repeats it over its samples. -/
def expandCompact : List (Nat × Nat) → List Nat → List Nat
  | [], _ => []
  | (p, c) :: ps, ds => (List.range c).map (fun j => ds.getD (j % p) 0) ++ expandCompact ps (ds.drop p)

/-- Meaning of a stored index. In a fragment with the flag, the top bit marks a description local to
the fragment; these are numbered from 0x10000 on. -/
def decIndex (msb : Bool) (size v : Nat) : Nat :=
  if msb ∧ v ≥ 2 ^ (size - 1) then v - 2 ^ (size - 1) + 0x10000 else v

theorem expand_segment {g : List Nat} {pos p c : Nat} (hp : 1 ≤ p) (hpc : p ≤ c) (hl : pos + c ≤ g.length)
    (hper : ∀ k, pos + p ≤ k → k < pos + c → g[k]? = g[k - p]?) (f : Nat → Nat) (more : List Nat) :
    (List.range c).map (fun j => (((g.drop pos).take p).map f ++ more).getD (j % p) 0) =
      ((g.drop pos).take c).map f := by
  have hmod : ∀ j, j < c → g[pos + j % p]? = g[pos + j]? := by
    intro j
    induction j using Nat.strongRecOn with
    | _ j ih =>
      intro hj
      by_cases h : j < p
      · rw [Nat.mod_eq_of_lt h]
      · rw [Nat.mod_eq_sub_mod (by omega), ih (j - p) (by omega) (by omega), hper (pos + j) (by omega) (by omega)]
        congr 1; omega
  apply List.ext_getElem?
  intro j
  by_cases hj : j < c
  · have hm : j % p < p := Nat.mod_lt _ (by omega)
    have e1 := hmod j hj
    rw [List.getElem?_eq_getElem (by omega), List.getElem?_eq_getElem (by omega)] at e1
    have e2 : g[pos + j % p]'(by omega) = g[pos + j]'(by omega) := by simpa using e1
    rw [List.getElem?_map, List.getElem?_range hj, List.getElem?_map, List.getElem?_take_of_lt hj,
      List.getElem?_drop, List.getElem?_eq_getElem (show pos + j < g.length by omega)]
    simp only [Option.map_some, Option.some.injEq]
    rw [List.getD_eq_getElem?_getD, List.getElem?_append_left (by simp; omega), List.getElem?_map,
      List.getElem?_take_of_lt hm, List.getElem?_drop, List.getElem?_eq_getElem (show pos + j % p < g.length by omega)]
    simp only [Option.map_some, Option.getD_some]
    rw [e2]
  · rw [List.getElem?_eq_none (by simp; omega), List.getElem?_eq_none (by simp; omega)]

theorem Walk.expand {g : List Nat} {n : Nat} {trk : List Tr} (hg : n ≤ g.length) (f : Nat → Nat) :
    ∀ (k : Nat) (idx : Int) (pos : Nat) (segs : List (Nat × Nat × Nat)), Walk g n trk k idx pos segs →
    expandCompact (segs.map (·.2)) ((descsOf g segs).map f) = ((g.take n).drop pos).map f := by
  intro k
  induction k with
  | zero =>
    rintro idx pos segs ⟨_, h2, rfl⟩
    rw [h2, List.drop_of_length_le (by simp; omega)]
    rfl
  | succ k ih =>
    rintro idx pos segs hw
    obtain ⟨e, rest, h1, h2, h3, h4, h5, h6, h7, h8, rfl, h10⟩ := hw
    have hi := ih _ _ _ h10
    have hd : descsOf g ((pos, e.plen, e.count) :: rest) = (g.drop pos).take e.plen ++ descsOf g rest := by
      simp [descsOf]
    have hvl : ((g.drop pos).take e.plen).length = e.plen := by simp; omega
    rw [hd, List.map_cons, List.map_append]
    unfold expandCompact
    rw [expand_segment (pos := pos) h6 h7 (by omega) (fun k a b => h8 k a (by omega)),
      List.drop_left' (by rw [List.length_map, hvl]), hi, ← List.map_append]
    congr 1
    rw [← List.drop_drop, ← List.take_append_drop e.count ((g.take n).drop pos)]
    congr 1
    · rw [List.drop_take, List.take_take, Nat.min_eq_left (by omega)]
    · rw [List.take_append_drop]

theorem Walk.entries {g : List Nat} {n : Nat} {trk : List Tr} :
    ∀ (k : Nat) (idx : Int) (pos : Nat) (segs : List (Nat × Nat × Nat)), Walk g n trk k idx pos segs →
    (∀ e ∈ segs.map (·.2), 1 ≤ e.1 ∧ e.1 ≤ e.2) ∧ pos + ((segs.map (·.2)).map (·.2)).sum = n := by
  intro k
  induction k with
  | zero => rintro idx pos segs ⟨_, h2, rfl⟩; simpa using h2
  | succ k ih =>
    rintro idx pos segs ⟨e, rest, h1, h2, h3, h4, h5, h6, h7, h8, rfl, h10⟩
    obtain ⟨a, b⟩ := ih _ _ _ h10
    refine ⟨?_, ?_⟩
    · intro x hx
      rw [List.map_cons, List.mem_cons] at hx
      rcases hx with rfl | hx
      · exact ⟨h6, h7⟩
      · exact a x hx
    · simp only [List.map_cons, List.sum_cons]; omega

theorem fieldSize_fits {v : Nat} (h : v < 4294967296) : v < 2 ^ Sbgp.fieldSize v false := by
  unfold Sbgp.fieldSize
  rw [if_neg (by simp)]
  split
  · omega
  · split
    · omega
    · split <;> omega

theorem fieldSize_cases (v : Nat) (b : Bool) : Sbgp.fieldSize v b = 4 ∨ Sbgp.fieldSize v b = 8 ∨
    Sbgp.fieldSize v b = 16 ∨ Sbgp.fieldSize v b = 32 := by
  unfold Sbgp.fieldSize
  repeat' split
  all_goals simp

/-- A field size of the format. -/
def IsSize (s : Nat) : Prop := s = 4 ∨ s = 8 ∨ s = 16 ∨ s = 32

theorem foldl_field : ∀ (xs : List Nat) (m : Nat), IsSize m →
    IsSize (xs.foldl (fun m x => max m (Sbgp.fieldSize x false)) m) ∧
    m ≤ xs.foldl (fun m x => max m (Sbgp.fieldSize x false)) m ∧
    ∀ x ∈ xs, Sbgp.fieldSize x false ≤ xs.foldl (fun m x => max m (Sbgp.fieldSize x false)) m := by
  intro xs
  induction xs with
  | nil => intro m h; exact ⟨h, Nat.le_refl m, by simp⟩
  | cons x xs ih =>
    intro m h
    have hm : IsSize (max m (Sbgp.fieldSize x false)) := by
      rcases Nat.le_total m (Sbgp.fieldSize x false) with hx | hx
      · rw [Nat.max_eq_right hx]; exact fieldSize_cases x false
      · rw [Nat.max_eq_left hx]; exact h
    obtain ⟨a, b, c⟩ := ih _ hm
    simp only [List.foldl_cons]
    refine ⟨a, by omega, ?_⟩
    intro y hy
    rcases List.mem_cons.mp hy with rfl | hy
    · omega
    · exact c y hy

theorem maxField_spec (xs : List Nat) (hx : ∀ x ∈ xs, x < 4294967296) :
    IsSize (maxField xs) ∧ ∀ x ∈ xs, x < 2 ^ maxField xs := by
  obtain ⟨a, _, c⟩ := foldl_field xs 4 (Or.inl rfl)
  refine ⟨a, ?_⟩
  intro x hm
  exact Nat.lt_of_lt_of_le (fieldSize_fits (hx x hm)) (Nat.pow_le_pow_right (by omega) (c x hm))

theorem align_spec {p c : Nat} (hp : IsSize p) (hc : IsSize c) :
    IsSize (align p c).1 ∧ IsSize (align p c).2 ∧ p ≤ (align p c).1 ∧ c ≤ (align p c).2 ∧
      ((align p c).1 + (align p c).2) % 8 = 0 := by
  unfold align
  rcases hp with rfl | rfl | rfl | rfl <;> rcases hc with rfl | rfl | rfl | rfl <;> simp [IsSize]

/-- How group indices, their field size, the flag for fragment-local descriptions and being in a
fragment go together in an atom built by `mapSamplestoGroup` (see `c23_field_fits`). -/
def Fits (frag msb : Bool) (size g : Nat) : Prop :=
  IsSize size ∧ g < 2 ^ size ∧
  (frag = true → g ≥ 0x10000 → msb = true ∧ size = 32 ∧ g < 2147483648) ∧
  (msb = true → frag = true ∧ g < 2147483648 ∧ size = 32)

theorem dec_enc {frag msb : Bool} {size g : Nat} (h : Fits frag msb size g) :
    decIndex msb size (encIndex frag msb size g) = g ∧ encIndex frag msb size g < 2 ^ size := by
  obtain ⟨h1, h2, h3, h4⟩ := h
  unfold decIndex encIndex
  by_cases hl : frag = true ∧ g ≥ 0x10000
  · obtain ⟨a, rfl, c⟩ := h3 hl.1 hl.2
    rw [if_pos hl, if_pos a]
    have e : (g - 0x10000) ||| 1 <<< (32 - 1) = g - 0x10000 + 2147483648 := by
      rw [Nat.or_comm, or_shift_eq (n := 31) (by omega)]; omega
    rw [e]
    have e2 : (2 : Nat) ^ (32 - 1) = 2147483648 := by decide
    rw [e2, if_pos ⟨a, by omega⟩]
    omega
  · rw [if_neg hl]
    refine ⟨?_, h2⟩
    rw [if_neg]
    rintro ⟨a, b⟩
    obtain ⟨c, d, rfl⟩ := h4 a
    have e2 : (2 : Nat) ^ (32 - 1) = 2147483648 := by decide
    omega

/-- The parts of `compact`, put together. -/
theorem compact_eq (cells : List Nat) (n : Nat) (frag msb : Bool) (size : Nat) (hpos : 0 < n)
    (hle : n ≤ cells.length) (hn : n < 33554432) (hsz : size ≤ 32) :
    ∃ trk k idx segs, Walk cells n trk k idx 0 segs ∧
      (descsOf cells segs).length = lens segs ∧
      compact cells n frag msb size = .ok (cells, ⟨segs.map (·.2), (descsOf cells segs).map (encIndex frag msb size)⟩,
        align (maxField ((segs.map (·.2)).map (·.1))) (maxField ((segs.map (·.2)).map (·.2)))) := by
  have hcost : n * size < 1073741824 := Nat.lt_of_le_of_lt (Nat.mul_le_mul_left _ hsz) (by omega)
  obtain ⟨trk, t1, t2⟩ := findAll_inv hle hcost (List.range n) _ (by simp) (init_inv cells size n)
  have e0 : ((n : Int) - 1 + 1).toNat = n := by omega
  obtain ⟨s, segs, s1, s2, s3, s4⟩ := combine_spec (g := cells) (field := size) (n := n) (by omega)
    (n + 1) ((n : Int) - 1) ⟨trk, n, 0, 0⟩ [] (by omega) (by omega) (by omega) t2.len
    (fun j e _ he => t2.good j e he) (by rw [e0]; exact ⟨rfl, rfl, rfl⟩) rfl
  obtain ⟨e1, e2⟩ := emit_spec (frag := frag) (msb := msb) (size := size) (total := s.total) hle s2 s.patterns
    s.start 0 segs ⟨[], []⟩ s3 (by simp [s4])
  simp only [List.nil_append] at e1
  refine ⟨s.trk, s.patterns, s.start, segs, s3, e2, ?_⟩
  unfold compact
  rw [if_neg (by omega), normalise_id _ _ hpos hle]
  simp only [Res.bind]
  rw [t1]
  simp only
  rw [s1]
  simp only
  rw [e1]
  simp only
  rw [if_pos (by rw [List.length_map, e2, s4])]

theorem Walk.inside {g : List Nat} {n : Nat} {trk : List Tr} {sg : Nat × Nat × Nat} :
    ∀ (k : Nat) (idx : Int) (pos : Nat) (segs : List (Nat × Nat × Nat)),
    Walk g n trk k idx pos segs → sg ∈ segs → sg.1 + sg.2.1 ≤ n := by
  intro k
  induction k with
  | zero => rintro idx pos segs ⟨_, _, rfl⟩ hm; cases hm
  | succ k ih =>
    rintro idx pos segs ⟨e, rest, h1, h2, h3, h4, h5, h6, h7, h8, rfl, h10⟩ hm
    rcases List.mem_cons.mp hm with rfl | hm
    · show pos + e.plen ≤ _; omega
    · exact ih _ _ _ h10 hm

theorem Walk.mem {g : List Nat} {n : Nat} {trk : List Tr} {k : Nat} {idx : Int} {pos : Nat}
    {segs : List (Nat × Nat × Nat)} (h : Walk g n trk k idx pos segs) {v : Nat} (hv : v ∈ descsOf g segs) :
    v ∈ g.take n := by
  unfold descsOf at hv
  obtain ⟨sg, hsg, hv⟩ := List.mem_flatMap.mp hv
  have := Walk.inside _ _ _ _ h hsg
  rw [List.mem_iff_getElem?] at hv ⊢
  obtain ⟨i, hi⟩ := hv
  have hilt : i < sg.2.1 := by
    by_cases h : i < sg.2.1
    · exact h
    · rw [List.getElem?_eq_none (by simp; omega)] at hi; cases hi
  rw [List.getElem?_take_of_lt hilt, List.getElem?_drop] at hi
  exact ⟨sg.1 + i, by rw [List.getElem?_take_of_lt (by omega)]; exact hi⟩

theorem le_sum {e : Nat × Nat} : ∀ (xs : List (Nat × Nat)), e ∈ xs → e.2 ≤ (xs.map (·.2)).sum := by
  intro xs
  induction xs with
  | nil => simp
  | cons y ys ih =>
    intro h
    simp only [List.map_cons, List.sum_cons]
    rcases List.mem_cons.mp h with rfl | h
    · omega
    · have := ih h; omega

/-- Computing the compact form of the groups `L` of any (positive) number of samples succeeds without
undefined behaviour — below 2^25 samples, so that costs fit the C type — and leaves the mapping
itself unchanged. The result stands for exactly `L`. Its entries are consistent (no empty pattern, no
pattern longer than its samples, index array of exactly the lengths of all patterns, sample counts
adding up) and fit the chosen field sizes, which make entries whole bytes. -/
theorem c23_compact_lossless (cells L : List Nat) (frag msb : Bool) (size : Nat)
    (hcells : cells.take L.length = L) (h0 : L ≠ []) (hn : L.length < 33554432)
    (hfit : ∀ g ∈ L, Fits frag msb size g) :
    ∃ o p c, compact cells L.length frag msb size = .ok (cells, o, p, c) ∧
      expandCompact o.patterns (o.descs.map (decIndex msb size)) = L ∧
      (∀ e ∈ o.patterns, 1 ≤ e.1 ∧ e.1 ≤ e.2 ∧ e.1 < 2 ^ p ∧ e.2 < 2 ^ c) ∧
      o.descs.length = (o.patterns.map (·.1)).sum ∧ L.length = (o.patterns.map (·.2)).sum ∧
      (∀ v ∈ o.descs, v < 2 ^ size) ∧
      IsSize p ∧ IsSize c ∧ (p + c) % 8 = 0 := by
  have hpos : 0 < L.length := List.length_pos_iff.mpr h0
  have hle : L.length ≤ cells.length := by
    have := congrArg List.length hcells
    rw [List.length_take] at this; omega
  have hsz : size ≤ 32 := by
    obtain ⟨g, hg⟩ := List.exists_mem_of_ne_nil L h0
    rcases (hfit g hg).1 with h | h | h | h <;> omega
  obtain ⟨trk, k, idx, segs, s3, e2, hc⟩ := compact_eq cells L.length frag msb size hpos hle hn hsz
  obtain ⟨w1, w2⟩ := s3.entries
  have hb : ∀ e ∈ segs.map (·.2), e.2 ≤ L.length := by
    intro e he
    have := le_sum _ he
    omega
  obtain ⟨p1, p2⟩ := maxField_spec ((segs.map (·.2)).map (·.1)) (by
    intro x hx
    obtain ⟨e, he, rfl⟩ := List.mem_map.mp hx
    have := hb e he
    have := w1 e he
    omega)
  obtain ⟨c1, c2⟩ := maxField_spec ((segs.map (·.2)).map (·.2)) (by
    intro x hx
    obtain ⟨e, he, rfl⟩ := List.mem_map.mp hx
    have := hb e he
    omega)
  obtain ⟨a1, a2, a3, a4, a5⟩ := align_spec p1 c1
  generalize align (maxField ((segs.map (·.2)).map (·.1))) (maxField ((segs.map (·.2)).map (·.2))) = pc at *
  obtain ⟨p, c⟩ := pc
  refine ⟨⟨segs.map (·.2), (descsOf cells segs).map (encIndex frag msb size)⟩, p, c,
    ?_, ?_, ?_, ?_, (by rw [Nat.zero_add] at w2; exact w2.symm), ?_, a1, a2, a5⟩
  · exact hc
  · show expandCompact (segs.map (·.2)) (((descsOf cells segs).map (encIndex frag msb size)).map (decIndex msb size)) = L
    rw [List.map_map, s3.expand hle, List.drop_zero, hcells]
    conv => rhs; rw [← List.map_id L]
    apply List.map_congr_left
    intro g hg
    exact (dec_enc (hfit g hg)).1
  · intro e he
    obtain ⟨x, y⟩ := w1 e he
    refine ⟨x, y, ?_, ?_⟩
    · exact Nat.lt_of_lt_of_le (p2 e.1 (List.mem_map.mpr ⟨e, he, rfl⟩)) (Nat.pow_le_pow_right (by omega) a3)
    · exact Nat.lt_of_lt_of_le (c2 e.2 (List.mem_map.mpr ⟨e, he, rfl⟩)) (Nat.pow_le_pow_right (by omega) a4)
  · show ((descsOf cells segs).map (encIndex frag msb size)).length = _
    rw [List.length_map, e2]
    simp [lens, Function.comp_def]
  · intro v hv
    obtain ⟨g, hg, rfl⟩ := List.mem_map.mp hv
    have := s3.mem hg
    rw [hcells] at this
    exact (dec_enc (hfit g this)).2

/-! ### The hypothesis `Fits` holds in every reachable state -/

/-- Every sample so far has a group below 2^31, and field size and flag were chosen for it. -/
structure Noted (t : Sbgp.Sbgp) (L : List Nat) : Prop where
  size : IsSize t.sizeCode
  flag : t.msb = true → t.frag = true ∧ t.sizeCode = 32
  fits : ∀ g ∈ L, g < 2 ^ t.sizeCode ∧ g < 2147483648 ∧ (t.frag = true → g ≥ 0x10000 → t.msb = true)

theorem Noted.toFits {t : Sbgp.Sbgp} {L : List Nat} (h : Noted t L) : ∀ g ∈ L, Fits t.frag t.msb t.sizeCode g := by
  intro g hg
  obtain ⟨a, b, c⟩ := h.fits g hg
  refine ⟨h.size, a, fun hf hl => ?_, fun hm => ?_⟩
  · have := c hf hl
    exact ⟨this, (h.flag this).2, b⟩
  · exact ⟨(h.flag hm).1, b, (h.flag hm).2⟩

theorem max_size {a b : Nat} (ha : IsSize a) (hb : IsSize b) : IsSize (max a b) := by
  rcases Nat.le_total a b with h | h
  · rw [Nat.max_eq_right h]; exact hb
  · rw [Nat.max_eq_left h]; exact ha

theorem Noted.note {t : Sbgp.Sbgp} {L L' : List Nat} (h : Noted t L) {g : Nat} (hg : g < 2147483648)
    (hmem : ∀ x ∈ L', x ∈ L ∨ x = g) : Noted (Sbgp.noteIndex t g) L' := by
  have hsz : IsSize (Sbgp.noteIndex t g).sizeCode := max_size h.size (fieldSize_cases _ _)
  have hle : t.sizeCode ≤ (Sbgp.noteIndex t g).sizeCode := Nat.le_max_left _ _
  have hfl : (Sbgp.noteIndex t g).msb = true →
      (Sbgp.noteIndex t g).frag = true ∧ (Sbgp.noteIndex t g).sizeCode = 32 := by
    intro hm
    have hm : (t.msb || (t.frag && decide (g ≥ 0x10000))) = true := hm
    have h32 : ∀ {s : Nat}, IsSize s → s ≤ 32 := by
      intro s hs; rcases hs with rfl | rfl | rfl | rfl <;> omega
    cases hmsb : t.msb with
    | true =>
      obtain ⟨a, b⟩ := h.flag hmsb
      have := h32 hsz
      exact ⟨a, by omega⟩
    | false =>
      rw [hmsb, Bool.false_or, Bool.and_eq_true, decide_eq_true_eq] at hm
      refine ⟨hm.1, ?_⟩
      have : Sbgp.fieldSize g true = 32 := by
        unfold Sbgp.fieldSize
        rw [if_pos rfl, if_neg (by omega), if_neg (by omega), if_neg (by omega)]
      have e : (Sbgp.noteIndex t g).sizeCode = max t.sizeCode (Sbgp.fieldSize g true) := by
        unfold Sbgp.noteIndex
        simp only [hmsb, hm.1, Bool.false_or, Bool.true_and, decide_eq_true hm.2]
      have := h32 h.size
      omega
  refine ⟨hsz, hfl, ?_⟩
  intro x hx
  rcases hmem x hx with hx | rfl
  · obtain ⟨a, b, c⟩ := h.fits x hx
    refine ⟨Nat.lt_of_lt_of_le a (Nat.pow_le_pow_right (by omega) hle), b, fun hf hl => ?_⟩
    show (t.msb || (t.frag && decide (g ≥ 0x10000))) = true
    rw [c hf hl, Bool.true_or]
  · refine ⟨?_, hg, fun hf hl => ?_⟩
    · cases hm : (Sbgp.noteIndex t x).msb with
      | true => rw [(hfl hm).2]; omega
      | false =>
        have hm : (t.msb || (t.frag && decide (x ≥ 0x10000))) = false := hm
        have e : Sbgp.fieldSize x false ≤ (Sbgp.noteIndex t x).sizeCode := by
          unfold Sbgp.noteIndex
          rw [hm]
          exact Nat.le_max_right _ _
        exact Nat.lt_of_lt_of_le (fieldSize_fits (by omega)) (Nat.pow_le_pow_right (by omega) e)
    · have hf : t.frag = true := hf
      show (t.msb || (t.frag && decide (x ≥ 0x10000))) = true
      rw [hf, decide_eq_true hl]; simp

theorem Noted.same {t t' : Sbgp.Sbgp} {L L' : List Nat} (h : Noted t L) (h1 : t'.sizeCode = t.sizeCode)
    (h2 : t'.msb = t.msb) (h3 : t'.frag = t.frag) (hmem : ∀ x ∈ L', x ∈ L ∨ x = 0) : Noted t' L' := by
  refine ⟨by rw [h1]; exact h.size, by rw [h1, h2, h3]; exact h.flag, ?_⟩
  intro x hx
  rw [h1, h2, h3]
  rcases hmem x hx with hx | rfl
  · exact h.fits x hx
  · exact ⟨Nat.pow_pos (by omega), by omega, by omega⟩

/-- Groups that are given out are below 2^31. -/
def SmallGroups : List Sbgp.Op → Prop
  | [] => True
  | .map g _ _ :: os => g < 2147483648 ∧ SmallGroups os
  | _ :: os => SmallGroups os

theorem run_noted (ops : List Sbgp.Op) : ∀ (t : Sbgp.Sbgp) (L : List Nat), Sbgp.Rep t L → Noted t L →
    L.length < 268435456 → Sbgp.AllValid L ops → SmallGroups ops →
    ∃ t', runAll Sbgp.step t ops = .ok t' ∧ Sbgp.Rep t' (ops.foldl Sbgp.Op.apply L) ∧
      Noted t' (ops.foldl Sbgp.Op.apply L) := by
  induction ops with
  | nil => intro t L h hn _ _ _; exact ⟨t, rfl, h, hn⟩
  | cons o ops ih =>
    intro t L h hn hL hv hsm
    obtain ⟨t1, s1, s2, s3⟩ := Sbgp.step_rep h hL o hv.1
    have key : Noted t1 (o.apply L) ∧ SmallGroups ops := by
      cases o with
      | add n junk =>
        have hv1 : L.length + n < 268435456 := hv.1
        obtain ⟨t', g1, _, g3, g4, g5⟩ := Sbgp.addSamples_rep (junk := junk) h n (by omega)
        have : t1 = t' := by
          have s1 : Sbgp.addSamples junk t n = .ok t1 := s1
          rw [g1] at s1
          cases s1; rfl
        subst this
        refine ⟨hn.same g3 g4 g5 ?_, hsm⟩
        intro x hx
        rcases List.mem_append.mp hx with hx | hx
        · exact Or.inl hx
        · exact Or.inr (List.mem_replicate.mp hx).2
      | map g index n =>
        obtain ⟨_, v1, v2, v3⟩ := hv.1
        obtain ⟨k1, k2⟩ := Sbgp.mapSamples_rep h g index n (by omega) v1 v2 v3
        refine ⟨?_, hsm.2⟩
        simp only [Sbgp.step] at s1
        simp only [Sbgp.Op.apply]
        by_cases hr : Sbgp.first L.length index + n ≤ L.length
        · obtain ⟨t', m1, _, m3, m4, m5⟩ := k1 hr
          rw [m1] at s1
          cases s1
          rw [if_pos hr]
          refine (hn.same m3 m4 m5 (L' := L) fun x hx => Or.inl hx).note hsm.1 ?_
          intro x hx
          rw [Mem.overwrite_eq (by unfold Sbgp.first at hr ⊢; split at hr <;> simp <;> omega)] at hx
          rcases List.mem_append.mp hx with hx | hx
          · rcases List.mem_append.mp hx with hx | hx
            · exact Or.inl (List.mem_of_mem_take hx)
            · exact Or.inr (List.mem_replicate.mp hx).2
          · exact Or.inl (List.mem_of_mem_drop hx)
        · rw [k2 hr] at s1
          cases s1
          rw [if_neg hr]
          exact hn
    obtain ⟨t', r1, r2, r3⟩ := ih t1 _ s2 key.1 s3 hv.2 key.2
    refine ⟨t', ?_, r2, r3⟩
    simp only [runAll, s1, Res.bind]
    exact r1

/-- After any history of adding samples and mapping them to groups below 2^31, the hypotheses of
`c23_compact_lossless` on cells and groups hold. -/
theorem c23_field_fits (frag : Bool) (ops : List Sbgp.Op) (hv : Sbgp.AllValid [] ops) (hs : SmallGroups ops) :
    ∃ t, runAll Sbgp.step (Sbgp.create frag) ops = .ok t ∧
      t.cells.take (ops.foldl Sbgp.Op.apply []).length = ops.foldl Sbgp.Op.apply [] ∧
      ∀ g ∈ ops.foldl Sbgp.Op.apply [], Fits t.frag t.msb t.sizeCode g := by
  obtain ⟨t, h1, h2, h3⟩ := run_noted ops (Sbgp.create frag) [] (Sbgp.rep_create frag)
    ⟨Or.inl rfl, (by intro h; cases h), by simp⟩ (by simp) hv hs
  exact ⟨t, h1, h2.cells, h3.toFits⟩

/-- The two together: for any history, compacting the resulting mapping loses nothing. -/
theorem c23_history (frag : Bool) (ops : List Sbgp.Op) (hv : Sbgp.AllValid [] ops) (hs : SmallGroups ops)
    (h0 : ops.foldl Sbgp.Op.apply [] ≠ []) (hn : (ops.foldl Sbgp.Op.apply []).length < 33554432) :
    ∃ t o p c, runAll Sbgp.step (Sbgp.create frag) ops = .ok t ∧
      compact t.cells t.count t.frag t.msb t.sizeCode = .ok (t.cells, o, p, c) ∧
      expandCompact o.patterns (o.descs.map (decIndex t.msb t.sizeCode)) = ops.foldl Sbgp.Op.apply [] := by
  obtain ⟨t, h1, h2, h3⟩ := run_noted ops (Sbgp.create frag) [] (Sbgp.rep_create frag)
    ⟨Or.inl rfl, (by intro h; cases h), by simp⟩ (by simp) hv hs
  obtain ⟨o, p, c, q1, q2, _⟩ := c23_compact_lossless t.cells _ t.frag t.msb t.sizeCode h2.cells h0 hn h3.toFits
  exact ⟨t, o, p, c, h1, by rw [h2.count]; exact q1, q2⟩

/-- A real defect: with no samples the optimiser reads and writes behind its arrays. -/
theorem c23_empty : compact [] 0 false false 4 = .ub := by decide +kernel

/-- Fifteen samples, patterns and single groups: the hypotheses of `c23_compact_lossless`, and what is
computed. -/
example : (∀ g ∈ [1, 2, 1, 2, 1, 3, 3, 3, 3, 3, 3, 4, 5, 9], Fits false false 4 g) ∧
    compact [1, 2, 1, 2, 1, 3, 3, 3, 3, 3, 3, 4, 5, 9, 9] 14 false false 4 =
      .ok ([1, 2, 1, 2, 1, 3, 3, 3, 3, 3, 3, 4, 5, 9, 9], ⟨[(2, 5), (1, 6), (3, 3)], [1, 2, 3, 4, 5, 9]⟩, 4, 4) := by
  refine ⟨?_, by decide +kernel⟩
  intro g hg
  refine ⟨Or.inl rfl, ?_, by simp, by simp⟩
  simp at hg
  omega

/-- A history with a fragment-local description. -/
example : Sbgp.AllValid [] [.add 3 (fun _ => 0), .map 65537 (-2) 2] ∧
    SmallGroups [.add 3 (fun _ => 0), .map 65537 (-2) 2] ∧
    [Sbgp.Op.add 3 (fun _ => 0), .map 65537 (-2) 2].foldl Sbgp.Op.apply [] = [0, 65537, 65537] := by
  refine ⟨⟨by simp [Sbgp.Op.Valid], ⟨by omega, ?_, by omega, by omega⟩, trivial⟩, ⟨by omega, trivial⟩, rfl⟩
  simp [Sbgp.Op.apply]

end Verif.Csgp
