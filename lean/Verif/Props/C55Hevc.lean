import Verif.Lemmas.Config

/-!
# C55: parameter sets of an HEVC decoder configuration are returned as added
-/

namespace Verif.Config.Hevc

/-- One array: completeness, reserved bit, NAL unit type, number of sets, sets. -/
def arrBytes (a : Arr) : Bytes :=
  be 1 (128 * a.complete + a.type) ++ (be 2 a.nals.length ++ a.nals.flatMap nalBytes)

/-- The part of the record of ISO/IEC 14496-15, 8.3.3.1, before the arrays. -/
def head (c : Hevc) (tail : Bytes) : Bytes :=
  be 1 1 ++ (be 1 c.profile ++ (be 4 c.compatibility ++ (be 4 0 ++ (be 2 0 ++ (be 1 c.level ++
    (be 2 61440 ++ (be 1 252 ++ (be 1 (252 + c.chroma) ++ (be 1 (248 + c.luma) ++
    (be 1 (248 + c.chromaDepth) ++ (be 2 c.frameRate ++ (be 1 (8 + 4 * c.nested + c.lengthSize1) ++
    tail))))))))))))

/-- The record, with the arrays `as`. -/
def record (c : Hevc) (as : List Arr) : Bytes := head c (be 1 as.length ++ as.flatMap arrBytes)

def layout (c : Hevc) (as : List Arr) : Bytes := box (fcc 'h' 'v' 'c' 'C') (record c as)

/-- Values fit their fields. -/
structure HeadFits (c : Hevc) : Prop where
  profile : c.profile < 32
  compatibility : c.compatibility < 2 ^ 32
  level : c.level < 256
  chroma : c.chroma < 4
  luma : c.luma < 8
  chromaDepth : c.chromaDepth < 8
  frameRate : c.frameRate < 65536
  nested : c.nested < 2
  lengthSize1 : c.lengthSize1 < 4

structure ArrFits (a : Arr) : Prop where
  complete : a.complete < 2
  type : a.type < 64
  count : a.nals.length < 32
  sets : ∀ b ∈ a.nals, b.length < 65536

/-- The used arrays come first and fit; the others are as created. -/
structure Fits (c : Hevc) : Prop where
  head : HeadFits c
  length : c.arrays.length = 8
  count : c.count ≤ 8
  used : ∀ a ∈ c.arrays.take c.count, ArrFits a
  unused : c.arrays.drop c.count = noArrays.drop c.count

theorem byte_array : ∀ (a : Fin 2) (t : Fin 64),
    (w32(a.val <<< 7) ||| t.val) = 128 * a.val + t.val := by decide
theorem unbyte_array : ∀ (a : Fin 2) (t : Fin 64),
    (if (128 * a.val + t.val) &&& 0x80 ≠ 0 then 1 else 0) = a.val ∧ (128 * a.val + t.val) &&& 0x3f = t.val := by
  decide
theorem byte_last : ∀ (a : Fin 2) (n : Fin 4),
    (8 ||| w32(a.val <<< 2) ||| (n.val &&& 3)) = 8 + 4 * a.val + n.val := by decide
theorem unbyte_last : ∀ (a : Fin 2) (n : Fin 4),
    (8 + 4 * a.val + n.val) &&& 3 = n.val ∧ (8 + 4 * a.val + n.val) >>> 2 &&& 1 = a.val := by decide
theorem byte_chroma : ∀ n : Fin 4, (0xFC ||| n.val) = 252 + n.val := by decide
theorem byte_depth : ∀ n : Fin 8, (0xF8 ||| n.val) = 248 + n.val := by decide
theorem unbyte_chroma : ∀ n : Fin 4, (252 + n.val) &&& 3 = n.val := by decide
theorem unbyte_depth : ∀ n : Fin 8, (248 + n.val) &&& 7 = n.val := by decide
theorem unbyte_profile : ∀ n : Fin 32, n.val &&& 0x1f = n.val := by decide

theorem emits_arr {a : Arr} (h : ArrFits a) : Emits (putArr a) (arrBytes a) := by
  have := byte_array ⟨_, h.complete⟩ ⟨_, h.type⟩
  simp only at this
  unfold putArr arrBytes
  rw [this]
  exact (emits_put8 _).seq ((emits_put16 _).seq (emits_nals _))

theorem parses_arr {a : Arr} (h : ArrFits a) : Parses getArr (arrBytes a) a := by
  have u := unbyte_array ⟨_, h.complete⟩ ⟨_, h.type⟩
  simp only at u
  unfold getArr arrBytes
  have h1 := h.complete; have h2 := h.type; have h3 := h.count
  refine (parses_get8' (by omega)).bind ((parses_get16' (by omega)).bind ?_)
  refine Parses.bind_nil (parses_nals h.sets rfl) ?_
  rw [u.1, u.2]
  exact parses_pure _

theorem parses_arrs (l : List Arr) (hl : ∀ a ∈ l, ArrFits a) : ∀ done rest : List Arr, l.length ≤ rest.length →
    Parses (getArrs (done ++ rest) done.length l.length) (l.flatMap arrBytes) (done ++ l ++ rest.drop l.length) := by
  induction l with
  | nil =>
    intro done rest _
    simp only [List.flatMap_nil, List.length_nil, List.append_nil, List.drop_zero]
    exact parses_pure _
  | cons a l ih =>
    intro done rest hr
    obtain ⟨x, rest, rfl⟩ : ∃ x r, rest = x :: r := by
      cases rest with
      | nil => simp at hr
      | cons x r => exact ⟨x, r, rfl⟩
    simp only [List.length_cons, getArrs, List.flatMap_cons]
    rw [if_neg (by simp)]
    refine (parses_arr (hl a (by simp))).bind ?_
    have e : (done ++ x :: rest).set done.length a = (done ++ [a]) ++ rest := by simp
    have := ih (fun b hb => hl b (by simp [hb])) (done ++ [a]) rest (by simpa using hr)
    rw [e]
    simpa using this

theorem bad_arrs (l : List Arr) (hl : ∀ a ∈ l, ArrFits a) : ∀ done rest : List Arr, rest.length < l.length →
    Bad (getArrs (done ++ rest) done.length l.length) (l.flatMap arrBytes) := by
  induction l with
  | nil => intro done rest h; simp at h
  | cons a l ih =>
    intro done rest hr
    simp only [List.length_cons, getArrs, List.flatMap_cons]
    cases rest with
    | nil =>
      have h1 := (hl a (by simp)).complete; have h2 := (hl a (by simp)).type
      rw [if_pos (by simp)]
      unfold arrBytes
      rw [List.append_assoc]
      refine bindBad (parses_get8' (by omega)) ?_
      intro r k
      rfl
    | cons x rest =>
      rw [if_neg (by simp)]
      refine bindBad (parses_arr (hl a (by simp))) ?_
      have e : (done ++ x :: rest).set done.length a = (done ++ [a]) ++ rest := by simp
      have := ih (fun b hb => hl b (by simp [hb])) (done ++ [a]) rest (by simpa using hr)
      rw [e]
      simpa using this

theorem arrs_length (l : List Arr) :
    (l.flatMap arrBytes).length = 3 * l.length + (l.map fun a => nalsSize a.nals).sum := by
  induction l with
  | nil => rfl
  | cons a l ih =>
    simp only [List.flatMap_cons, List.length_append, ih, arrBytes, be_length, nals_length, List.length_cons,
      List.map_cons, List.sum_cons]
    omega

theorem arrs_le {l : List Arr} (h : ∀ a ∈ l, ArrFits a) :
    (l.flatMap arrBytes).length ≤ 2031650 * l.length := by
  induction l with
  | nil => simp
  | cons a l ih =>
    have h1 := ih fun b hb => h b (by simp [hb])
    have h2 := nalsSize_le (h a (by simp)).sets
    have h3 := (h a (by simp)).count
    simp only [List.flatMap_cons, List.length_append, arrBytes, be_length, nals_length, List.length_cons] at h1 ⊢
    omega

theorem record_length (c : Hevc) (as : List Arr) :
    (record c as).length = 23 + 3 * as.length + (as.map fun a => nalsSize a.nals).sum := by
  have := arrs_length as
  simp only [record, head, List.length_append, be_length, this]
  omega

theorem layout_length (c : Hevc) (as : List Arr) :
    (layout c as).length = 8 + 23 + 3 * as.length + (as.map fun a => nalsSize a.nals).sum := by
  simp only [layout, box, List.length_append, be_length, record_length]
  omega

theorem calcSize_eq {c : Hevc} (h : Fits c) : calcSize c = .ok (layout c (c.arrays.take c.count)).length := by
  have hc := h.count; have hl := h.length
  have e : (c.arrays.take c.count).length = c.count := by simp [hl, hc]
  unfold calcSize
  rw [if_neg (by omega), if_neg ?_, layout_length, e]
  · have := arrs_le h.used
    rw [arrs_length, e] at this
    rw [Nat.mod_eq_of_lt (by omega)]
  · simp only [List.any_eq_true, decide_eq_true_eq, not_exists, not_and, Classical.not_not]
    intro a ha
    rw [Nat.shiftRight_eq_div_pow]
    have := (h.used a ha).count
    omega

/-- Reading the part before the arrays. -/
theorem parses_head {c : Hevc} (h : HeadFits c) {n : Nat} (hn : n < 256) {tail : Bytes} {as : List Arr}
    (ht : Parses (getArrs noArrays 0 n) tail as) (hdr : Hdr) :
    Parses (parse hdr) (head c (be 1 n ++ tail)) { c with count := n, arrays := as } := by
  have u1 := unbyte_chroma ⟨_, h.chroma⟩
  have u2 := unbyte_depth ⟨_, h.luma⟩
  have u3 := unbyte_depth ⟨_, h.chromaDepth⟩
  have u4 := unbyte_profile ⟨_, h.profile⟩
  have u5 := unbyte_last ⟨_, h.nested⟩ ⟨_, h.lengthSize1⟩
  simp only at u1 u2 u3 u4 u5
  obtain ⟨h1, h2, h3, h4, h5, h6, h7, h8, h9⟩ := h
  unfold parse head
  refine (parses_get8' (by omega)).bind ?_
  rw [if_neg (by simp)]
  refine (parses_get8' (by omega)).bind ((parses_get32' h2).bind ((parses_get32' (by omega)).bind
    ((parses_get16' (by omega)).bind ((parses_get8' h3).bind ((parses_get16' (by omega)).bind
    ((parses_get8' (by omega)).bind ((parses_get8' (by omega)).bind ((parses_get8' (by omega)).bind
    ((parses_get8' (by omega)).bind ((parses_get16' h7).bind ((parses_get8' (by omega)).bind
    ((parses_get8' hn).bind (ht.bind_nil ?_)))))))))))))
  simp only [u1, u2, u3, u4, u5.1, u5.2]
  exact parses_pure _

/-- A configuration in range, with the used arrays first, survives being written and parsed. -/
theorem c55_hevc_round_trip (c : Hevc) (h : Fits c) :
    BoxRoundTrip (layout c (c.arrays.take c.count)).length
      (serialize (layout c (c.arrays.take c.count)).length c) parse c (layout c (c.arrays.take c.count)) := by
  have hc := h.count; have hl := h.length
  have e : (c.arrays.take c.count).length = c.count := by simp [hl, hc]
  have hlen : (layout c (c.arrays.take c.count)).length < 4294967296 := by
    have := arrs_le h.used
    rw [arrs_length, e] at this
    rw [layout_length, e]
    omega
  have k1 := byte_chroma ⟨_, h.head.chroma⟩
  have k2 := byte_depth ⟨_, h.head.luma⟩
  have k3 := byte_depth ⟨_, h.head.chromaDepth⟩
  have k5 := byte_last ⟨_, h.head.nested⟩ ⟨_, h.head.lengthSize1⟩
  simp only at k1 k2 k3 k5
  refine BoxRoundTrip.of (type := type) ?_ ?_ (by simp only [layout, box, List.length_append, be_length]) hlen
    (by decide) (by decide)
  · unfold serialize record head
    rw [k1, k2, k3, k5, if_neg (by omega), e]
    refine (emits_serBase _ _).then ?_
    refine (emits_put8 _).then ((emits_put8 _).then ((emits_put32 _).then ((emits_put32 _).then ((emits_put16 _).then
      ((emits_put8 _).then ((emits_put16 _).then ((emits_put8 _).then ((emits_put8 _).then ((emits_put8 _).then
      ((emits_put8 _).then ((emits_put16 _).then ((emits_put8 _).then ((emits_put8 _).then
      (Emits.thenAssert ?_))))))))))))))
    exact Emits.each _ fun a ha => emits_arr (h.used a ha)
  · apply Parses.at
    have hp := parses_arrs (c.arrays.take c.count) h.used [] noArrays (by rw [e]; exact hc)
    rw [e] at hp
    simp only [List.nil_append, List.length_nil, ← h.unused, List.take_append_drop] at hp
    have := parses_head h.head (n := c.count) (by omega) hp ⟨(layout c (c.arrays.take c.count)).length, type, [], 0, 8⟩
    unfold record
    rw [e]
    exact this

theorem write_eq {c : Hevc} (h : Fits c) : write c = .ok (layout c (c.arrays.take c.count)) := by
  unfold write
  rw [calcSize_eq h, bind_ok]
  exact (c55_hevc_round_trip c h).write

theorem read_eq {c : Hevc} (h : Fits c) : read (layout c (c.arrays.take c.count)) = .ok c := by
  obtain ⟨hd, e⟩ := (c55_hevc_round_trip c h).read []
  rw [List.append_nil] at e
  unfold read
  rw [e]

/-! ## Sets added one by one -/

/-- The arrays after the sets `adds`. -/
def arraysOf (adds : List (Nat × Bytes)) : List Arr :=
  [⟨1, 32, setsOf adds 32⟩, ⟨1, 33, setsOf adds 33⟩, ⟨1, 34, setsOf adds 34⟩, ⟨1, 35, setsOf adds 35⟩,
   ⟨1, 36, setsOf adds 36⟩, ⟨1, 37, setsOf adds 37⟩, ⟨1, 38, setsOf adds 38⟩, ⟨1, 39, setsOf adds 39⟩]

def one (l : List Bytes) : Nat := if l.length = 0 then 0 else 1

theorem one_le (l : List Bytes) : one l ≤ 1 := by unfold one; split <;> omega

/-- Number of types among the sets `adds`. -/
def countOf (adds : List (Nat × Bytes)) : Nat :=
  one (setsOf adds 32) + one (setsOf adds 33) + one (setsOf adds 34) + one (setsOf adds 35) +
  one (setsOf adds 36) + one (setsOf adds 37) + one (setsOf adds 38) + one (setsOf adds 39)

def plus (c : Hevc) (adds : List (Nat × Bytes)) : Hevc :=
  { c with count := countOf adds, arrays := arraysOf adds }

theorem one_append (l : List Bytes) (b : Bytes) : one (l ++ [b]) = 1 := by simp [one]

theorem count_step {l : List Bytes} {n : Nat} (hn : n < 100) :
    (if l.length = 0 then w32(n + 1) else n) + one l = n + 1 := by
  unfold one
  split
  · rw [Nat.mod_eq_of_lt (by omega)]
  · rfl

theorem plus_add (c : Hevc) (adds : List (Nat × Bytes)) {t : Nat} (b : Bytes) (ht : 32 ≤ t ∧ t ≤ 39) :
    add (plus c adds) t b = plus c (adds ++ [(t, b)]) := by
  have hn : countOf adds < 100 := by
    have h1 := one_le (setsOf adds 32); have h2 := one_le (setsOf adds 33); have h3 := one_le (setsOf adds 34)
    have h4 := one_le (setsOf adds 35); have h5 := one_le (setsOf adds 36); have h6 := one_le (setsOf adds 37)
    have h7 := one_le (setsOf adds 38); have h8 := one_le (setsOf adds 39)
    unfold countOf
    omega
  have hs := fun l => count_step (l := l) hn
  obtain ⟨h1, h2⟩ := ht
  have : t = 32 ∨ t = 33 ∨ t = 34 ∨ t = 35 ∨ t = 36 ∨ t = 37 ∨ t = 38 ∨ t = 39 := by omega
  rcases this with rfl | rfl | rfl | rfl | rfl | rfl | rfl | rfl
  · have h := hs (setsOf adds 32)
    simp [add, plus, arraysOf, setsOf_append, setsOf_one, List.findIdx?_cons]
    simp [countOf, setsOf_append, setsOf_one, one_append] at h ⊢
    omega
  · have h := hs (setsOf adds 33)
    simp [add, plus, arraysOf, setsOf_append, setsOf_one, List.findIdx?_cons]
    simp [countOf, setsOf_append, setsOf_one, one_append] at h ⊢
    omega
  · have h := hs (setsOf adds 34)
    simp [add, plus, arraysOf, setsOf_append, setsOf_one, List.findIdx?_cons]
    simp [countOf, setsOf_append, setsOf_one, one_append] at h ⊢
    omega
  · have h := hs (setsOf adds 35)
    simp [add, plus, arraysOf, setsOf_append, setsOf_one, List.findIdx?_cons]
    simp [countOf, setsOf_append, setsOf_one, one_append] at h ⊢
    omega
  · have h := hs (setsOf adds 36)
    simp [add, plus, arraysOf, setsOf_append, setsOf_one, List.findIdx?_cons]
    simp [countOf, setsOf_append, setsOf_one, one_append] at h ⊢
    omega
  · have h := hs (setsOf adds 37)
    simp [add, plus, arraysOf, setsOf_append, setsOf_one, List.findIdx?_cons]
    simp [countOf, setsOf_append, setsOf_one, one_append] at h ⊢
    omega
  · have h := hs (setsOf adds 38)
    simp [add, plus, arraysOf, setsOf_append, setsOf_one, List.findIdx?_cons]
    simp [countOf, setsOf_append, setsOf_one, one_append] at h ⊢
    omega
  · have h := hs (setsOf adds 39)
    simp [add, plus, arraysOf, setsOf_append, setsOf_one, List.findIdx?_cons]
    simp [countOf, setsOf_append, setsOf_one, one_append] at h ⊢
    omega

/-- No type is left out: with a type, all smaller ones from 32 on are there too. -/
def NoGap (adds : List (Nat × Bytes)) : Prop :=
  ∀ t, 32 ≤ t → (∃ a ∈ adds, a.1 = t + 1) → ∃ a ∈ adds, a.1 = t

theorem setsOf_ne (adds : List (Nat × Bytes)) (t : Nat) : (∃ a ∈ adds, a.1 = t) ↔ (setsOf adds t).length ≠ 0 := by
  simp only [setsOf, List.length_map, ne_eq, List.length_eq_zero_iff, List.filter_eq_nil_iff,
    Classical.not_forall, beq_iff_eq, Classical.not_not]
  constructor
  · rintro ⟨a, h1, h2⟩; exact ⟨a, h1, h2⟩
  · rintro ⟨a, h1, h2⟩; exact ⟨a, h1, h2⟩

theorem NoGap.one_le {adds : List (Nat × Bytes)} (h : NoGap adds) {t : Nat} (ht : 32 ≤ t) :
    one (setsOf adds (t + 1)) ≤ one (setsOf adds t) := by
  have := h t ht
  rw [setsOf_ne, setsOf_ne] at this
  unfold one
  split <;> split <;> omega

/-- Without gaps the used arrays are the first ones. -/
theorem used_iff {adds : List (Nat × Bytes)} (h : NoGap adds) {i : Nat} (hi : i < 8) :
    one (setsOf adds (32 + i)) = if i < countOf adds then 1 else 0 := by
  have a1 := h.one_le (t := 32) (by omega); have a2 := h.one_le (t := 33) (by omega)
  have a3 := h.one_le (t := 34) (by omega); have a4 := h.one_le (t := 35) (by omega)
  have a5 := h.one_le (t := 36) (by omega); have a6 := h.one_le (t := 37) (by omega)
  have a7 := h.one_le (t := 38) (by omega)
  have a0 := one_le (setsOf adds 32)
  unfold countOf
  have : i = 0 ∨ i = 1 ∨ i = 2 ∨ i = 3 ∨ i = 4 ∨ i = 5 ∨ i = 6 ∨ i = 7 := by omega
  simp only [Nat.reduceAdd] at a1 a2 a3 a4 a5 a6 a7
  rcases this with rfl | rfl | rfl | rfl | rfl | rfl | rfl | rfl <;> simp only [Nat.reduceAdd] <;> split <;> omega

def arrOf (adds : List (Nat × Bytes)) (i : Nat) : Arr := ⟨1, 32 + i, setsOf adds (32 + i)⟩

theorem arraysOf_eq (adds : List (Nat × Bytes)) : arraysOf adds = (List.range 8).map (arrOf adds) := rfl

theorem find_range (adds : List (Nat × Bytes)) (t m : Nat) :
    ((List.range m).map (arrOf adds)).find? (fun a => a.type == t) =
      if 32 ≤ t ∧ t < 32 + m then some (arrOf adds (t - 32)) else none := by
  induction m with
  | zero =>
    simp
  | succ m ih =>
    rw [List.range_succ, List.map_append, List.find?_append, ih]
    by_cases h : 32 ≤ t ∧ t < 32 + m
    · rw [if_pos h, if_pos (by omega)]; rfl
    · rw [if_neg h]
      by_cases h2 : t = 32 + m
      · rw [if_pos (by omega)]
        simp [arrOf, h2]
      · rw [if_neg (by omega)]
        simp [arrOf]
        omega

theorem countOf_le (adds : List (Nat × Bytes)) : countOf adds ≤ 8 := by
  have h1 := one_le (setsOf adds 32); have h2 := one_le (setsOf adds 33); have h3 := one_le (setsOf adds 34)
  have h4 := one_le (setsOf adds 35); have h5 := one_le (setsOf adds 36); have h6 := one_le (setsOf adds 37)
  have h7 := one_le (setsOf adds 38); have h8 := one_le (setsOf adds 39)
  unfold countOf
  omega

/-- What is written of a configuration with the sets `adds`. -/
def kept (c : Hevc) (adds : List (Nat × Bytes)) : Hevc :=
  { c with count := countOf adds
           arrays := (arraysOf adds).take (countOf adds) ++ noArrays.drop (countOf adds) }

theorem write_congr {c d : Hevc} (h : { c with arrays := [] } = { d with arrays := [] })
    (hl : c.arrays.length = d.arrays.length) (ht : c.arrays.take c.count = d.arrays.take d.count) :
    write c = write d := by
  cases c; cases d
  simp only [mk.injEq, and_true] at h
  obtain ⟨rfl, rfl, rfl, rfl, rfl, rfl, rfl, rfl, rfl, rfl⟩ := h
  simp only at hl ht
  simp only [write, calcSize, serialize, hl, ht]

theorem kept_take (c : Hevc) (adds : List (Nat × Bytes)) :
    (kept c adds).arrays.take (kept c adds).count = (List.range (countOf adds)).map (arrOf adds) := by
  have hc := countOf_le adds
  simp only [kept]
  rw [List.take_append_of_le_length (by simp [arraysOf]; omega), List.take_take, Nat.min_self, arraysOf_eq,
    ← List.map_take, List.take_range, Nat.min_eq_left hc]

theorem write_kept (c : Hevc) (adds : List (Nat × Bytes)) : write (plus c adds) = write (kept c adds) := by
  have hc := countOf_le adds
  refine write_congr rfl ?_ ?_
  · simp only [plus, kept, List.length_append, List.length_take, List.length_drop]
    have e1 : (arraysOf adds).length = 8 := rfl
    have e2 : noArrays.length = 8 := rfl
    omega
  · rw [kept_take]
    simp only [plus]
    rw [arraysOf_eq, ← List.map_take, List.take_range, Nat.min_eq_left hc]

theorem fits_kept {c : Hevc} (hc : HeadFits c) {adds : List (Nat × Bytes)}
    (hn : ∀ t, (setsOf adds t).length < 32) (hs : ∀ a ∈ adds, a.2.length < 65536) : Fits (kept c adds) := by
  have hco := countOf_le adds
  have e1 : (arraysOf adds).length = 8 := rfl
  refine ⟨⟨hc.1, hc.2, hc.3, hc.4, hc.5, hc.6, hc.7, hc.8, hc.9⟩, ?_, hco, ?_, ?_⟩
  · simp only [kept, List.length_append, List.length_take, List.length_drop]
    have e2 : noArrays.length = 8 := rfl
    omega
  · rw [kept_take]
    intro a ha
    simp only [List.mem_map, List.mem_range] at ha
    obtain ⟨i, hi, rfl⟩ := ha
    refine ⟨by simp [arrOf], by simp only [arrOf]; omega, hn _, ?_⟩
    intro b hb
    simp only [arrOf, setsOf, List.mem_map, List.mem_filter] at hb
    obtain ⟨a, ⟨ha, _⟩, rfl⟩ := hb
    exact hs a ha
  · simp only [kept]
    rw [List.drop_append, List.drop_eq_nil_of_le (by simp; omega), List.length_take, e1, Nat.min_eq_left hco,
      Nat.sub_self, List.drop_zero, List.nil_append]

theorem answer_nil (i : Nat) : answer [] i = .err .badParam := by
  unfold answer
  split <;> rfl

theorem setsOf_nil {adds : List (Nat × Bytes)} {t : Nat} (h : ∀ a ∈ adds, a.1 ≠ t) : setsOf adds t = [] := by
  simp only [setsOf, List.map_eq_nil_iff, List.filter_eq_nil_iff, beq_iff_eq]
  exact h

theorem get_kept (c : Hevc) (adds : List (Nat × Bytes)) (hn : ∀ t, (setsOf adds t).length < 32) (t i : Nat) :
    get (kept c adds) t i =
      if 32 ≤ t ∧ t < 32 + countOf adds then answer (setsOf adds t) i else .err .badParam := by
  have hc := countOf_le adds
  have hl : (kept c adds).arrays.length = 8 := by
    simp only [kept, List.length_append, List.length_take, List.length_drop]
    have e1 : (arraysOf adds).length = 8 := rfl
    have e2 : noArrays.length = 8 := rfl
    omega
  unfold get
  rw [hl, if_neg (show ¬ (kept c adds).count > 8 from Nat.not_lt.2 hc), kept_take, find_range]
  by_cases h : 32 ≤ t ∧ t < 32 + countOf adds
  · rw [if_pos h, if_pos h]
    have e2 : (arrOf adds (t - 32)).nals = setsOf adds t := by
      simp only [arrOf]; congr 1; omega
    simp only [e2]
    exact nth_eq (by have := hn t; omega) i
  · rw [if_neg h, if_neg h]

/-- Sets added in order to a configuration, as the creation of a sample description does. -/
def addAll (c : Hevc) (adds : List (Nat × Bytes)) : Hevc := adds.foldl (fun c a => add c a.1 a.2) c

theorem addAll_plus (c : Hevc) (adds : List (Nat × Bytes)) (ht : ∀ a ∈ adds, 32 ≤ a.1 ∧ a.1 ≤ 39) :
    addAll (plus c []) adds = plus c adds := by
  have key : ∀ l d : List (Nat × Bytes), (∀ a ∈ l, 32 ≤ a.1 ∧ a.1 ≤ 39) → addAll (plus c d) l = plus c (d ++ l) := by
    intro l
    induction l with
    | nil => intro d _; simp [addAll]
    | cons a l ih =>
      intro d h
      have := ih (d ++ [a]) fun b hb => h b (by simp [hb])
      simp only [addAll, List.foldl_cons] at this ⊢
      rw [plus_add c d a.2 (h a (by simp)), this]
      simp
  simpa using key adds [] ht

theorem one_eq (adds : List (Nat × Bytes)) (t : Nat) :
    one (setsOf adds t) = if (adds.any fun a => a.1 == t) = true then 1 else 0 := by
  have h := setsOf_ne adds t
  unfold one
  by_cases h1 : (adds.any fun a => a.1 == t) = true
  · have : ∃ a ∈ adds, a.1 = t := by simpa [List.any_eq_true] using h1
    rw [if_pos h1, if_neg (h.1 this)]
  · have : ¬ ∃ a ∈ adds, a.1 = t := by simpa [List.any_eq_true] using h1
    rw [h, Classical.not_not] at this
    rw [if_neg h1, if_pos this]

theorem filter_count (adds : List (Nat × Bytes)) : countOf adds =
    (((List.range 8).map (32 + ·)).filter fun t => adds.any fun a => a.1 == t).length := by
  have e : (List.range 8).map (32 + ·) = [32, 33, 34, 35, 36, 37, 38, 39] := rfl
  rw [e, ← List.countP_eq_length_filter]
  simp only [List.countP_cons, List.countP_nil, countOf, one_eq]
  omega

/-- Which sets are returned. Of sets of types from 32 to 39, at most 31 of each type, each below 65536
bytes, exactly those whose type is below 32 plus the number of types. -/
theorem c55_hevc_returned (c : Hevc) (hc : HeadFits c) (hnew : c.count = 0 ∧ c.arrays = noArrays)
    (adds : List (Nat × Bytes)) (ht : ∀ a ∈ adds, 32 ≤ a.1 ∧ a.1 ≤ 39)
    (hn : ∀ t, (setsOf adds t).length < 32) (hs : ∀ a ∈ adds, a.2.length < 65536) :
    ∃ h, write (addAll c adds) = .ok h ∧ ∀ t i, getStored h t i =
      if 32 ≤ t ∧ t < 32 + (((List.range 8).map (32 + ·)).filter fun t => adds.any fun a => a.1 == t).length
      then answer (setsOf adds t) i else .err .badParam := by
  have e0 : plus c [] = c := by
    cases c
    simp only at hnew
    simp only [plus, hnew]
    rfl
  have hf := fits_kept hc hn hs
  have e1 := addAll_plus c adds ht
  rw [e0] at e1
  refine ⟨_, by rw [e1, write_kept]; exact write_eq hf, fun t i => ?_⟩
  unfold getStored
  rw [read_eq hf, bind_ok, get_kept c adds hn, filter_count]

/-- **HEVC**, as far as it holds: when sets of the types 32, 33, … up to some type not above 39 are
all there, at most 31 of each type, each below 65536 bytes, then the configuration is written, and
each set is returned from it by its type and number. -/
theorem c55_hevc_sets_partial (c : Hevc) (hc : HeadFits c) (hnew : c.count = 0 ∧ c.arrays = noArrays)
    (adds : List (Nat × Bytes)) (ht : ∀ a ∈ adds, 32 ≤ a.1 ∧ a.1 ≤ 39) (hg : NoGap adds)
    (hn : ∀ t, (setsOf adds t).length < 32) (hs : ∀ a ∈ adds, a.2.length < 65536) :
    ∃ h, write (addAll c adds) = .ok h ∧
      ∀ t i, getStored h t i = answer (setsOf adds t) i := by
  obtain ⟨h, h1, h2⟩ := c55_hevc_returned c hc hnew adds ht hn hs
  refine ⟨h, h1, fun t i => ?_⟩
  rw [h2, ← filter_count]
  by_cases h : 32 ≤ t ∧ t < 32 + countOf adds
  · rw [if_pos h]
  · rw [if_neg h]
    have e2 : setsOf adds t = [] := by
      by_cases h2 : 32 ≤ t ∧ t ≤ 39
      · have := used_iff hg (i := t - 32) (by omega)
        rw [if_neg (by omega), show 32 + (t - 32) = t by omega] at this
        unfold one at this
        split at this
        · exact List.eq_nil_of_length_eq_zero (by assumption)
        · omega
      · exact setsOf_nil fun a ha e => h2 (by have := ht a ha; omega)
    rw [e2, answer_nil]

/-- Two picture parameter sets: the conditions hold. -/
example : NoGap [(34, [1]), (32, [2]), (33, [3]), (34, [4])] ∧
    setsOf [(34, [1]), (32, [2]), (33, [3]), (34, [4])] 34 = [[1], [4]] := by
  refine ⟨?_, rfl⟩
  intro t h1 h2
  simp at h2 ⊢
  omega

/-! ## Where sets are lost -/

/-- The video parameter set is optional. Without it the picture parameter set is lost: the box is
written with an empty array for video parameter sets in its place, without error. -/
theorem c55_not_hevc_without_vps (c : Hevc) (hc : HeadFits c) (hnew : c.count = 0 ∧ c.arrays = noArrays)
    (sps pps : Bytes) (hs : sps.length < 65536) (hp : pps.length < 65536) :
    ∃ h, newStored c none (some sps) (some pps) = .ok h ∧
      getStored h 33 1 = .ok sps ∧ getStored h 34 1 = .err .badParam := by
  obtain ⟨h, h1, h2⟩ := c55_hevc_returned c hc hnew [(33, sps), (34, pps)] (by simp) (by
    intro t
    have := List.length_filter_le (fun a : Nat × Bytes => a.1 == t) [(33, sps), (34, pps)]
    simp only [setsOf, List.length_map]
    simp only [List.length_cons, List.length_nil] at this
    omega) (by simp [hs, hp])
  refine ⟨h, h1, ?_, ?_⟩
  · rw [h2]; rfl
  · rw [h2]; rfl

/-- With a sequence parameter set alone even that one is lost. -/
theorem c55_not_hevc_sps_only (c : Hevc) (hc : HeadFits c) (hnew : c.count = 0 ∧ c.arrays = noArrays)
    (sps : Bytes) (hs : sps.length < 65536) :
    ∃ h, newStored c none (some sps) none = .ok h ∧ getStored h 33 1 = .err .badParam := by
  obtain ⟨h, h1, h2⟩ := c55_hevc_returned c hc hnew [(33, sps)] (by simp) (by
    intro t
    have := List.length_filter_le (fun a : Nat × Bytes => a.1 == t) [(33, sps)]
    simp only [setsOf, List.length_map]
    simp only [List.length_cons, List.length_nil] at this
    omega) (by simp [hs])
  refine ⟨h, h1, ?_⟩
  rw [h2]; rfl

/-- A set of a type that no array has (40 is a supplemental message the standard allows here) is
dropped without error. -/
theorem c55_not_hevc_other_type (c : Hevc) (t : Nat) (h : ∀ a ∈ c.arrays, a.type ≠ t) (b : Bytes) :
    add c t b = c := by
  unfold add
  have : c.arrays.findIdx? (fun a => a.type == t) = none := by
    rw [List.findIdx?_eq_none_iff]
    intro a ha
    simp [h a ha]
  rw [this]

example : ∀ a ∈ create.arrays, a.type ≠ 40 := by decide

/-- A well-formed box with more than eight arrays: the parser stores the ninth outside `arrays`. -/
theorem c55_not_hevc_nine_arrays (c : Hevc) (hc : HeadFits c) (as : List Arr) (ha : ∀ a ∈ as, ArrFits a)
    (h9 : 9 ≤ as.length) (h255 : as.length ≤ 255) : read (layout c as) = .ub := by
  have hbad : Bad (parse ⟨8 + (record c as).length, type, [], 0, 8⟩) (record c as) := by
    obtain ⟨h1, h2, h3, h4, h5, h6, h7, h8, h9'⟩ := hc
    unfold parse record head
    refine bindBad (parses_get8' (by omega)) ?_
    rw [if_neg (by simp)]
    refine bindBad (parses_get8' (by omega)) (bindBad (parses_get32' h2) (bindBad (parses_get32' (by omega))
      (bindBad (parses_get16' (by omega)) (bindBad (parses_get8' h3) (bindBad (parses_get16' (by omega))
      (bindBad (parses_get8' (by omega)) (bindBad (parses_get8' (by omega)) (bindBad (parses_get8' (by omega))
      (bindBad (parses_get8' (by omega)) (bindBad (parses_get16' h7) (bindBad (parses_get8' (by omega))
      (bindBad (parses_get8' (by omega)) (Bad.bind ?_ _)))))))))))))
    exact bad_arrs as ha [] noArrays (by simp [noArrays]; omega)
  have hle := arrs_le ha
  have hlen : 8 + (record c as).length < 4294967296 := by
    rw [record_length]
    rw [arrs_length] at hle
    omega
  unfold read
  have := parseAtom_bad hbad rfl hlen (by decide) (by decide)
  have e : layout c as = (be 4 (8 + (record c as).length) ++ be 4 type) ++ record c as := rfl
  rw [e, this]

/-- Nine arrays of one set each: the conditions hold. -/
example : let as := List.replicate 9 (⟨0, 39, [[1]]⟩ : Arr)
    HeadFits create ∧ (∀ a ∈ as, ArrFits a) ∧ 9 ≤ as.length := by
  refine ⟨by constructor <;> decide, ?_, by decide⟩
  intro a ha
  rw [List.mem_replicate] at ha
  rw [ha.2]
  exact ⟨by decide, by decide, by decide, by decide⟩

end Verif.Config.Hevc
