import Verif.Model.Media
import Verif.Lemmas.Stts
import Verif.Lemmas.Stsz
import Verif.Lemmas.Stco
import Verif.Lemmas.Mdat
import Verif.Props.C11

/-! # Lemmas for C25 -/

namespace Verif.Stts

/-- The cached position is inside the table (not behind its last entry). -/
def StrictCache (t : Stts) : Prop :=
  t.found = true → t.foundNum < t.entries.length ∧
    t.foundTime = (expand (t.entries.take t.foundNum)).sum ∧
    t.foundSample = 1 + (expand (t.entries.take t.foundNum)).length

theorem StrictCache.toOK {t : Stts} (h : StrictCache t) : CacheOK t := fun hf =>
  ⟨Nat.le_of_lt (h hf).1, (h hf).2⟩

theorem scan_num (n : Nat) : ∀ (rest : List (Nat × Nat)) (P : List Nat) (s : Scan),
    (P ++ expand rest).length + 1 < 4294967296 → s.sample = 1 + P.length →
    P.length < n → n ≤ (P ++ expand rest).length → (scan n rest s).num < s.num + rest.length := by
  intro rest
  induction rest with
  | nil => intro P s _ _ h1 h2; simp at h2; omega
  | cons e es ih =>
    obtain ⟨c, d⟩ := e
    intro P s hc hs h1 h2
    have hc' := hc
    simp only [expand_cons, List.length_append, List.length_replicate] at hc'
    unfold scan
    have e1 : (s.sample + c) % 4294967296 = 1 + P.length + c := by
      rw [hs, Nat.mod_eq_of_lt (by omega)]
    rw [e1]
    by_cases hgt : 1 + P.length + c > n
    · rw [if_pos hgt]; simp
    · rw [if_neg hgt]
      have := ih (P ++ List.replicate c d)
        { s with sample := 1 + P.length + c, time := w64(s.time + w32(c * d)), num := s.num + 1 }
        (by simpa [Nat.add_assoc] using hc) (by simp; omega) (by simp; omega)
        (by simpa [Nat.add_assoc] using h2)
      simp only [List.length_cons] at this ⊢
      omega

theorem getTime_strict {t : Stts} (h : NoOverflow t.entries) (hc : StrictCache t) {n : Nat} (h1 : 1 ≤ n)
    (h2 : n ≤ (expand t.entries).length) : StrictCache (getTime t n).2 := by
  have hOK := (getTime_spec h hc.toOK n).1
  intro hf
  refine ⟨?_, (hOK hf).2⟩
  rw [getTime_entries]
  have split : ∀ k, expand (t.entries.take k) ++ expand (t.entries.drop k) = expand t.entries := by
    intro k; rw [← expand_append, List.take_append_drop]
  unfold getTime
  by_cases hfd : t.found = true ∧ t.foundSample < n
  · obtain ⟨c1, c2, c3⟩ := hc hfd.1
    simp only [if_pos hfd]
    have := scan_num n (t.entries.drop t.foundNum) (expand (t.entries.take t.foundNum))
      ⟨18446744073709551615, 0, t.foundTime, t.foundSample, t.foundNum⟩
      (by rw [split]; exact h.count) c3 (by have := hfd.2; omega) (by rw [split]; exact h2)
    simp only [List.length_drop] at this
    omega
  · simp only [if_neg hfd]
    have := scan_num n (t.entries.drop 0) [] ⟨18446744073709551615, 0, 0, 1, 0⟩
      (by simpa using h.count) (by simp) (by simp; omega) (by simpa using h2)
    simpa using this

/-- All but the last entry are kept. -/
def Keeps (es es' : List (Nat × Nat)) : Prop :=
  es.length ≤ es'.length ∧ ∀ k, k < es.length → es'.take k = es.take k

theorem keeps_addSample (es : List (Nat × Nat)) (d : Nat) : Keeps es (addSample es d) := by
  unfold addSample
  cases hl : es.getLast? with
  | none => exact ⟨by simp, fun k hk => List.take_append_of_le_length (by omega)⟩
  | some p =>
    obtain ⟨c, d'⟩ := p
    have he := getLast?_eq_some_iff_append hl
    have hlen : es.length = es.dropLast.length + 1 := by
      have := congrArg List.length he; simpa using this
    simp only []
    split
    · exact ⟨by simp, fun k hk => List.take_append_of_le_length (by omega)⟩
    · refine ⟨by simp; omega, fun k hk => ?_⟩
      rw [List.take_append_of_le_length (by omega)]
      conv => rhs; rw [he]
      rw [List.take_append_of_le_length (by omega)]

theorem keeps_foldl : ∀ (ds : List Nat) (es : List (Nat × Nat)), Keeps es (ds.foldl addSample es) := by
  intro ds
  induction ds with
  | nil => intro es; exact ⟨Nat.le_refl _, fun _ _ => rfl⟩
  | cons d ds ih =>
    intro es
    have h1 := keeps_addSample es d
    have h2 := ih (addSample es d)
    exact ⟨Nat.le_trans h1.1 h2.1, fun k hk =>
      (h2.2 k (Nat.lt_of_lt_of_le hk h1.1)).trans (h1.2 k hk)⟩

theorem StrictCache.add {t : Stts} (h : StrictCache t) {es : List (Nat × Nat)} (hk : Keeps t.entries es) :
    StrictCache { t with entries := es } := by
  intro hf
  obtain ⟨h1, h2, h3⟩ := h hf
  simp only [hk.2 _ h1]
  exact ⟨Nat.lt_of_lt_of_le h1 hk.1, h2, h3⟩

theorem runs_foldl : ∀ (ds : List Nat) (es : List (Nat × Nat)), Runs es →
    (expand es).length + ds.length < 4294967296 → Runs (ds.foldl addSample es) := by
  intro ds
  induction ds with
  | nil => intro es h _; exact h
  | cons d ds ih =>
    intro es h hl
    simp only [List.length_cons] at hl
    refine ih _ (runs_addSample h (by omega) d) ?_
    rw [expand_addSample (by omega)]; simp; omega

theorem sum_ge_run : ∀ (es : List (Nat × Nat)) (e : Nat × Nat), e ∈ es → e.1 * e.2 ≤ (expand es).sum := by
  intro es
  induction es with
  | nil => intro e h; simp at h
  | cons p es ih =>
    intro e h
    rw [expand_cons, List.sum_append, sum_replicate]
    rcases List.mem_cons.mp h with h | h
    · rw [h]; omega
    · have := ih e h; omega

theorem noOverflow_of_sum {es : List (Nat × Nat)} (hr : Runs es)
    (hc : (expand es).length + 1 < 4294967296) (hs : (expand es).sum < 4294967296) : NoOverflow es := by
  refine ⟨hc, ?_, ?_⟩
  · intro e he
    have h1 := sum_ge_run es e he
    have h2 := hr.1 e he
    have : 1 * e.2 ≤ e.1 * e.2 := Nat.mul_le_mul_right _ h2
    omega
  · intro e he
    have h1 := sum_ge_run es e he
    omega

end Verif.Stts

namespace Verif.Stsc

/-- What the lookup cache satisfies when only existing samples were looked up. -/
def StrictCache (t : Stsc) (N : Nat) : Prop :=
  t.foundFirst ≠ 0 → ∃ a e b, t.entries = a ++ e :: b ∧ t.foundNum = a.length ∧
    t.foundFirst = 1 + (((chunksOf t.entries N).take (e.first - 1)).map Prod.fst).sum

theorem StrictCache.toOK {t : Stsc} {N : Nat} (h : StrictCache t N) : CacheOK t N :=
  fun hf => Or.inr (h hf)

theorem CacheOK.toStrict {t : Stsc} {N : Nat} (h : CacheOK t N) (hne : t.entries ≠ []) : StrictCache t N :=
  fun hf => (h hf).resolve_left hne

theorem StrictCache.add {t : Stsc} {cs : List (Nat × Nat)} (h : StrictCache t cs.length)
    (hr : Recorded t.entries cs) (spc desc : Nat) :
    StrictCache { t with entries := setEntry t.entries (cs.length + 1) spc desc } (cs.length + 1) := by
  intro hf
  obtain ⟨a, e, b, h1, h2, h3⟩ := h hf
  have hr' := recorded_step hr spc desc
  have hc' := hr'.chunks
  rw [List.length_append, List.length_singleton] at hc'
  have hb : ∃ b', setEntry t.entries (cs.length + 1) spc desc = a ++ e :: b' := by
    unfold setEntry
    split
    · split
      · exact ⟨b, h1⟩
      · exact ⟨b ++ [⟨cs.length + 1, spc, desc⟩], by rw [h1]; simp⟩
    · exact ⟨b ++ [⟨cs.length + 1, spc, desc⟩], by rw [h1]; simp⟩
  obtain ⟨b', hb'⟩ := hb
  refine ⟨a, e, b', hb', h2, ?_⟩
  have hef := (hr.firsts e (by rw [h1]; simp)).2
  show t.foundFirst = 1 + (((chunksOf (setEntry t.entries (cs.length + 1) spc desc) (cs.length + 1)).take
    (e.first - 1)).map Prod.fst).sum
  rw [hc', List.take_append_of_le_length (by omega), h3, hr.chunks]

end Verif.Stsc

namespace Verif.Media

theorem map_length_sum : ∀ (bs : List Bytes), (bs.map List.length).sum = bs.flatten.length := by
  intro bs
  induction bs with
  | nil => rfl
  | cons b bs ih => rw [List.map_cons, List.sum_cons, ih, List.flatten_cons, List.length_append]

/-- Element `k` of a list of byte strings inside their concatenation. -/
theorem flatten_slice : ∀ (bs : List Bytes) (k : Nat) (b : Bytes), bs[k]? = some b →
    (bs.flatten.drop (bs.take k).flatten.length).take b.length = b := by
  intro bs
  induction bs with
  | nil => intro k b h; simp at h
  | cons x xs ih =>
    intro k b h
    cases k with
    | zero => simp at h; subst h; simp
    | succ k =>
      simp only [List.getElem?_cons_succ] at h
      have := ih k b h
      simp only [List.take_succ_cons, List.flatten_cons, List.length_append]
      rw [← List.drop_drop, List.drop_left]
      exact this

theorem slice_le (bs : List Bytes) (k : Nat) (b : Bytes) (h : bs[k]? = some b) :
    (bs.take k).flatten.length + b.length ≤ bs.flatten.length := by
  have hk := (List.getElem?_eq_some_iff.mp h).1
  have e : bs = bs.take k ++ b :: bs.drop (k + 1) := by
    rw [← (List.getElem?_eq_some_iff.mp h).2, List.getElem_cons_drop, List.take_append_drop]
  conv => rhs; rw [e]
  simp

end Verif.Media
