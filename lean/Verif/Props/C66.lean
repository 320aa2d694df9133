import Verif.Props.C42
import Verif.Props.C08
import Verif.Lemmas.ByTime
import Verif.Model.ByTime

/-!
# C66 — a sample asked for by time, and the interesting times
-/

namespace Verif.ByTime

open Media (Supplied)
open Reader (Track Tables timeOf startOf_timeOf timeOf_add)

/-! ## What should be returned -/

/-- Sample `k` starts at `t`, or is playing then. -/
def At (S : List Supplied) (t k : Nat) : Prop :=
  ∃ s, S[k]? = some s ∧ (timeOf S k = t ∨ (timeOf S k ≤ t ∧ t < timeOf S k + s.dur))

/-- Sample `k` is the first that does. If no sample has duration zero there is at most one. -/
def FirstAt (S : List Supplied) (t k : Nat) : Prop := At S t k ∧ ∀ j, j < k → ¬ At S t j

instance (S : List Supplied) (t k : Nat) : Decidable (At S t k) :=
  match h : S[k]? with
  | some s => decidable_of_iff (timeOf S k = t ∨ (timeOf S k ≤ t ∧ t < timeOf S k + s.dur))
      ⟨fun g => ⟨s, h, g⟩, fun ⟨s', h', g⟩ => by rw [h] at h'; injection h' with h'; subst h'; exact g⟩
  | none => isFalse (by rintro ⟨s', h', -⟩; rw [h] at h'; cases h')

instance (S : List Supplied) (t k : Nat) : Decidable (FirstAt S t k) := by unfold FirstAt; infer_instance

/-- What should be returned for sample `i`, apart from the description. -/
def expected (S : List Supplied) (has : Bool) (offs : List Nat) (sync : List Bool) (i : Nat) (s : Supplied) (desc : Nat) : Found :=
  ⟨s.bytes, s.bytes.length, timeOf S i, (timeOf S i + s32 (offs.getD i 0)).toNat, s.dur, desc,
    (if sync.getD i true then 0 else 1) + (if has then 2 else 0)⟩

/-- `x` is the first time after `t` at which a sample starts or the track ends. -/
def After (S : List Supplied) (t x : Nat) : Prop :=
  t < x ∧ (∃ i, i ≤ S.length ∧ timeOf S i = x) ∧ ∀ i, i ≤ S.length → t < timeOf S i → x ≤ timeOf S i

/-- `x` is the first such time from `t` on. -/
def FromOn (S : List Supplied) (t x : Nat) : Prop :=
  t ≤ x ∧ (∃ i, i ≤ S.length ∧ timeOf S i = x) ∧ ∀ i, i ≤ S.length → t ≤ timeOf S i → x ≤ timeOf S i

/-- `x` is the last time before `t` at which a sample starts. -/
def Before (S : List Supplied) (t x : Nat) : Prop :=
  x < t ∧ (∃ i, i < S.length ∧ timeOf S i = x) ∧ ∀ i, i < S.length → timeOf S i < t → timeOf S i ≤ x

/-- `x` is the last such time up to `t`. -/
def UpTo (S : List Supplied) (t x : Nat) : Prop :=
  x ≤ t ∧ (∃ i, i < S.length ∧ timeOf S i = x) ∧ ∀ i, i < S.length → timeOf S i ≤ t → timeOf S i ≤ x

/-! ## Times of samples -/

theorem timeOf_mono (S : List Supplied) {i j : Nat} (h : i ≤ j) : timeOf S i ≤ timeOf S j := by
  obtain ⟨k, rfl⟩ := Nat.exists_eq_add_of_le h
  unfold timeOf
  rw [List.take_add, List.map_append, List.sum_append]
  omega

theorem timeOf_succ {S : List Supplied} {i : Nat} {s : Supplied} (h : S[i]? = some s) :
    timeOf S (i + 1) = timeOf S i + s.dur := by
  obtain ⟨hi, he⟩ := List.getElem?_eq_some_iff.mp h
  unfold timeOf
  rw [List.take_add_one, h, List.map_append, List.sum_append]
  simp

theorem timeOf_length (S : List Supplied) : timeOf S S.length = (S.map Supplied.dur).sum := by
  unfold timeOf; rw [List.take_length]

theorem FirstAt.unique {S : List Supplied} {t k k' : Nat} (h : FirstAt S t k) (h' : FirstAt S t k') : k = k' := by
  rcases Nat.lt_trichotomy k k' with g | g | g
  · exact absurd h.1 (h'.2 k g)
  · exact g
  · exact absurd h'.1 (h.2 k' g)

/-! ## Finding -/

theorem entry_bounds {m : Media.Media} {S D C} (hR : Media.Rep m S D C) (hf : Media.Fits S D C.length) :
    ∀ e ∈ m.stts.entries, 0 < e.1 ∧ e.1 * e.2 < 4294967296 ∧ e.2 < 4294967296 := by
  have hno := hR.noOverflow hf.samples hf.time
  exact fun e he => ⟨hR.runs.1 e he, hno.run e he, hno.dur e he⟩

theorem find_first {m : Media.Media} {S D C} (hR : Media.Rep m S D C) (hf : Media.Fits S D C.length) {t k : Nat}
    (hk : FirstAt S t k) {s : Supplied} (hs : S[k]? = some s) :
    ∃ r, Stts.findSamples m.stts.entries t = .ok r ∧ r.num = k + 1 ∧ r.dur = some s.dur ∧ dtsOf r = timeOf S k := by
  obtain ⟨⟨s', hs', ha⟩, hfirst⟩ := hk
  rw [hs] at hs'
  injection hs' with hs'
  subst hs'
  have hadd := timeOf_add hs
  have hft := hf.time
  have hfs := hf.samples
  have hno := hR.noOverflow hf.samples hf.time
  have hget : ∀ (j d : Nat), (S.map Supplied.dur)[j]? = some d → ∃ x, S[j]? = some x ∧ x.dur = d := by
    intro j d h
    rw [List.getElem?_map] at h
    cases hx : S[j]? with
    | none => rw [hx] at h; simp at h
    | some x => rw [hx] at h; exact ⟨x, rfl, by simpa using h⟩
  by_cases ht : t < (S.map Supplied.dur).sum
  · obtain ⟨r, k', d, h1, h2, h3, h4, h5, h6, h7, h8, -⟩ :=
      Stts.c08_find_samples m.stts.entries hno hR.runs.1 t (by rw [hR.times]; exact ht)
    rw [hR.times] at h4 h5 h6 h7 h8
    simp only [startOf_timeOf] at h5 h6 h7 h8
    obtain ⟨x, hx, hxd⟩ := hget _ _ h4
    have hf' : FirstAt S t k' := by
      refine ⟨⟨x, hx, by omega⟩, ?_⟩
      rintro j hj ⟨y, hy, hya⟩
      have := h7 j y.dur hj (by rw [List.getElem?_map, hy]; rfl)
      omega
    have := FirstAt.unique hf' ⟨⟨s, hs, ha⟩, hfirst⟩
    subst this
    rw [hs] at hx
    injection hx with hx
    subst hx
    refine ⟨r, h1, h2, by rw [h3, hxd], ?_⟩
    unfold dtsOf
    by_cases hex : r.exact ≠ Stts.m1
    · rw [if_pos hex] at h8 ⊢; exact h8
    · rw [if_neg hex] at h8 ⊢
      rw [if_pos (by unfold Stts.m1; omega)]; exact h8
  · have hne : m.stts.entries ≠ [] := by
      intro e
      have := hR.times
      rw [e] at this
      have hkl := (List.getElem?_eq_some_iff.mp hs).1
      have := congrArg List.length this
      simp at this
      omega
    obtain ⟨r, k', h1, h2, h3, h4, h5, h6, h7⟩ := Stts.findLoop_at_end t m.stts.entries 0 1
      ⟨Stts.m1, Stts.m1, Stts.m1, 0, none, false⟩ (entry_bounds hR hf) (by rw [hR.times]; omega)
      (by rw [hR.times, List.length_map]; omega) (by rw [hR.times]; omega) (fun e => absurd e hne)
    · rw [hR.times] at h4 h5 h6 h7
      simp only [Nat.zero_add, startOf_timeOf, List.length_map] at h4 h5 h6 h7
      have hkl := (List.getElem?_eq_some_iff.mp hs).1
      have hkk : k' ≤ k := by
        rcases Nat.lt_or_ge k k' with g | g
        · have := h7 k g
          omega
        · exact g
      obtain ⟨h8, h9⟩ := h6 (by omega)
      obtain ⟨x, hx, hxd⟩ := hget _ _ h9
      have : k' = k := by
        rcases Nat.lt_or_ge k' k with g | g
        · exact absurd ⟨x, hx, Or.inl h5⟩ (hfirst k' g)
        · omega
      subst this
      rw [hs] at hx
      injection hx with hx
      subst hx
      refine ⟨r, h1, by omega, by rw [h8, hxd], ?_⟩
      unfold dtsOf
      rw [if_pos (by rw [h3]; unfold Stts.m1; omega), h3, h5]

/-- If there is no sample, the number is 0 or the one after the last. -/
theorem find_none {m : Media.Media} {S D C} (hR : Media.Rep m S D C) (hf : Media.Fits S D C.length) {t : Nat}
    (hk : ∀ k, ¬ At S t k) :
    ∃ r, Stts.findSamples m.stts.entries t = .ok r ∧ (r.num = 0 ∨ (r.num = S.length + 1 ∧ m.stts.entries ≠ [])) := by
  have hft := hf.time
  have hfs := hf.samples
  rcases Nat.lt_trichotomy t (S.map Supplied.dur).sum with h | h | h
  · exfalso
    have hno := hR.noOverflow hf.samples hf.time
    obtain ⟨r, k', d, h1, h2, h3, h4, h5, h6, h7, h8, -⟩ :=
      Stts.c08_find_samples m.stts.entries hno hR.runs.1 t (by rw [hR.times]; exact h)
    rw [hR.times] at h4 h5 h6
    simp only [startOf_timeOf] at h5 h6
    rw [List.getElem?_map] at h4
    cases hx : S[k']? with
    | none => rw [hx] at h4; simp at h4
    | some x =>
      rw [hx] at h4
      simp at h4
      exact hk k' ⟨x, hx, by omega⟩
  · by_cases he : m.stts.entries = []
    · refine ⟨⟨Stts.m1, Stts.m1, Stts.m1, 0, none, false⟩, ?_, Or.inl rfl⟩
      rw [he]; rfl
    · obtain ⟨r, k', h1, h2, h3, h4, h5, h6, h7⟩ := Stts.findLoop_at_end t m.stts.entries 0 1
        ⟨Stts.m1, Stts.m1, Stts.m1, 0, none, false⟩ (entry_bounds hR hf) (by rw [hR.times]; omega)
        (by rw [hR.times, List.length_map]; omega) (by rw [hR.times]; omega) (fun e => absurd e he)
      rw [hR.times] at h4 h5
      simp only [Nat.zero_add, startOf_timeOf, List.length_map] at h4 h5
      refine ⟨r, h1, Or.inr ⟨?_, he⟩⟩
      rcases Nat.lt_or_ge k' S.length with g | g
      · exact absurd ⟨S[k'], List.getElem?_eq_getElem g, Or.inl h5⟩ (hk k')
      · omega
  · obtain ⟨r, h1, h2⟩ := Stts.findLoop_after t m.stts.entries 0 1
      ⟨Stts.m1, Stts.m1, Stts.m1, 0, none, false⟩ (entry_bounds hR hf) (by rw [hR.times]; omega)
      (by rw [hR.times]; omega)
    exact ⟨r, h1, Or.inl h2⟩

/-! ## Fetching -/

theorem getAt_first {t : Track} {S D C has offs sync} (hR : Media.Rep t.media S D C) (hf : Media.Fits S D C.length)
    (ht : Tables t S.length has offs sync) {time k : Nat} (hk : FirstAt S time k) {s : Supplied} (hs : S[k]? = some s)
    (hd : s.dur < 2147483648) (hc : 0 ≤ timeOf S k + s32 (offs.getD k 0) ∧ timeOf S k + s32 (offs.getD k 0) < 18446744073709551616)
    (hne : s.bytes ≠ [] ∨ D ≠ []) :
    ∃ desc st, getAt t time = .ok (expected S has offs sync k s desc, { t with media := { t.media with stsc := st } }) ∧
      Media.Rep { t.media with stsc := st } S D C := by
  obtain ⟨hkl, hke⟩ := List.getElem?_eq_some_iff.mp hs
  obtain ⟨r, f1, f2, f3, f4⟩ := find_first hR hf hk hs
  obtain ⟨o, st, first, off, pos, l1, l2, l3, l4, l5, l6, l7, l8, l9⟩ := hR.locate hf (n := k + 1) (by omega) (by omega)
  simp only [Nat.add_sub_cancel, hke] at l3 l7 l8
  have hfd := hf.data
  have hft := hf.time
  have hadd := timeOf_add hs
  have hdl : o.desc - 1 < t.media.stsd.length := by omega
  have hdr := hR.descs _ (List.getElem_mem hdl)
  have hcopy : Mdat.copyData t.media.mdat ((off + pos) % 18446744073709551616) s.bytes.length = .ok s.bytes := by
    rw [Nat.mod_eq_of_lt (by omega), Mdat.copyData_cases hR.mdat (by omega) (by omega) (by omega)]
    rw [if_neg, if_neg (by omega), l8]
    intro hor
    rcases hor with hor | hor
    · omega
    · have h1 := hR.mdat.null hor
      have h2 := hR.mdat.fits
      have hD : D = [] := List.length_eq_zero_iff.mp (by omega)
      rcases hne with hne | hne
      · have := List.length_pos_iff.mpr hne
        rw [hD] at l7
        simp at l7
        exact hne l7.2
      · exact hne hD
  have hcts : (timeOf S k + u64i (s32 (offs.getD k 0))) % 18446744073709551616 = (timeOf S k + s32 (offs.getD k 0)).toNat := by
    unfold u64i
    omega
  refine ⟨o.desc, st, ?_, l9⟩
  unfold getAt
  rw [f1]
  simp only [Res.bind, f2, f3, f4, l1, l2, l3, l4]
  rw [if_neg (by omega), List.getElem?_eq_getElem hdl]
  dsimp only
  rw [if_neg (by omega), hcopy]
  simp only [ht.sync k hkl, ht.offset k hkl, ht.has, hcts, Media.out_duration s.dur (by omega), if_pos hd]
  unfold expected
  cases sync.getD k true <;> cases has <;> rfl

theorem lookLoop_first (n : Nat) : ∀ (l : List StscEntry) (i first found : Nat), l ≠ [] → ∀ o f g,
    Stsc.lookLoop n l i first found = .ok (o, f, g) → ∃ x, o.firstSample = some x
  | [], _, _, _, h => absurd rfl h
  | [p], i, first, found, _ => by
    intro o f g h
    unfold Stsc.lookLoop at h
    split at h
    · cases h
    · injection h with h
      injection h with h1 h2
      subst h1
      exact ⟨_, rfl⟩
  | p :: q :: rest, i, first, found, _ => by
    intro o f g h
    unfold Stsc.lookLoop at h
    dsimp only at h
    split at h
    · split at h
      · cases h
      · injection h with h
        injection h with h1 h2
        subst h1
        exact ⟨_, rfl⟩
    · exact lookLoop_first n (q :: rest) _ _ _ (by simp) _ _ _ h

theorem getAt_none {t : Track} {S D C} (hR : Media.Rep t.media S D C) (hf : Media.Fits S D C.length)
    {time : Nat} (hk : ∀ k, ¬ At S time k) : getAt t time = .err .badParam := by
  obtain ⟨r, f1, f2⟩ := find_none hR hf hk
  unfold getAt
  rw [f1]
  dsimp only [Res.bind]
  rcases f2 with f2 | ⟨f2, hne⟩
  · rw [f2]; rfl
  · have hS : S ≠ [] := by
      rintro rfl
      have h := hR.times
      have hpos := hR.runs.1
      cases he : t.media.stts.entries with
      | nil => exact hne he
      | cons e es =>
        rw [he] at h hpos
        have := congrArg List.length h
        have := hpos e (by simp)
        simp at *
        omega
    obtain ⟨cs, c1, c2, c3, c4⟩ := hR.chunks
    have hcl : cs.length = C.length := by
      have := congrArg List.length c2; simpa using this
    have hposs : ∀ c ∈ cs, 0 < c.1 := by
      intro c hc
      have : c.1 ∈ cs.map Prod.fst := List.mem_map_of_mem hc
      rw [c2] at this
      obtain ⟨x, hx, e⟩ := List.mem_map.mp this
      rw [← e]; exact List.length_pos_iff.mpr (hR.pos x hx)
    have hwf := c1.wf hposs
    have hchunks := c1.chunks
    have hlenSum : (cs.map Prod.fst).sum = S.length := by
      rw [c2]
      have := congrArg List.length hR.split
      rw [List.length_flatMap, List.length_map] at this
      exact this
    have hfs := hf.samples
    have hfc := hf.chunks
    obtain ⟨o, st, l1, l2, l3, -⟩ := Stsc.lookup_spec (t := t.media.stsc) hwf (by omega)
      (by rw [hchunks, hlenSum]; omega) c4.toOK r.num (by omega)
    have hstsc : t.media.stsc.entries ≠ [] := by
      intro e
      have := hchunks
      rw [e] at this
      simp [chunksOf, chunkRuns] at this
      subst this
      simp at hlenSum
      exact hS (List.length_eq_zero_iff.mp hlenSum.symm)
    obtain ⟨x, hx⟩ : ∃ x, o.firstSample = some x := by
      have hlk := l1
      unfold Stsc.lookup at hlk
      rw [if_neg (by omega)] at hlk
      dsimp only at hlk
      split at hlk
      case h_1 o' fo fi heq =>
        injection hlk with hlk
        injection hlk with hlk1 hlk2
        subst hlk1
        refine lookLoop_first _ _ _ _ _ ?_ _ _ _ heq
        split
        case isTrue hcached =>
          rcases c4.toOK hcached.1 with h0 | ⟨a, e, b, h1, h2, -⟩
          · exact absurd h0 hstsc
          · rw [h1, h2, List.drop_left]; simp
        case isFalse => simpa using hstsc
      all_goals cases hlk
    rw [l1]
    simp only [hx, Stsz.getSampleSizeAndOffset]
    rw [if_pos]
    left
    rw [hR.sizes.count, List.length_map]
    omega

/-! ## The times -/

theorem nextTimes {t : Track} {S D C} (hR : Media.Rep t.media S D C) (hf : Media.Fits S D C.length)
    (hpos : ∀ s ∈ S, 0 < s.dur) {time : Nat} (ht : time < (S.map Supplied.dur).sum) :
    ∃ f k s, Stts.findSamples t.media.stts.entries time = .ok f ∧ S[k]? = some s ∧ timeOf S k ≤ time ∧
      time < timeOf S (k + 1) ∧ f.next = timeOf S (k + 1) ∧
      (timeOf S k = time → (k = 0 ∨ (S[k - 1]?).map Supplied.dur ≠ some s.dur) →
        f.exact = time ∧ f.prior = if k = 0 then Stts.m1 else timeOf S (k - 1)) ∧
      ((timeOf S k ≠ time ∨ (k ≠ 0 ∧ (S[k - 1]?).map Supplied.dur = some s.dur)) →
        f.exact = Stts.m1 ∧ f.prior = timeOf S k) := by
  have hno := hR.noOverflow hf.samples hf.time
  have hd : ∀ e ∈ t.media.stts.entries, 0 < e.2 := by
    intro e he
    have hc := hR.runs.1 e he
    have : e.2 ∈ expand t.media.stts.entries := by
      unfold expand
      rw [List.mem_flatMap]
      exact ⟨e, he, by rw [List.mem_replicate]; exact ⟨by omega, rfl⟩⟩
    rw [hR.times, List.mem_map] at this
    obtain ⟨s, hs, hd⟩ := this
    rw [← hd]; exact hpos s hs
  obtain ⟨r, k, d, h1, h2, h3, h4, h5, h6, h7⟩ := Stts.find_times hno hR.runs hd (t := time) (by rw [hR.times]; exact ht)
  · rw [hR.times] at h2 h3 h4 h5 h6 h7
    simp only [startOf_timeOf, List.getElem?_map] at h2 h3 h4 h5 h6 h7
    cases hx : S[k]? with
    | none => rw [hx] at h2; simp at h2
    | some x =>
      rw [hx] at h2
      simp at h2
      subst h2
      exact ⟨r, k, x, h1, hx, h3, h4, h5, h6, h7⟩

theorem timeOf_strict {S : List Supplied} (hpos : ∀ s ∈ S, 0 < s.dur) {i j : Nat} (h : i < j) (hj : j ≤ S.length) :
    timeOf S i < timeOf S j := by
  have h1 := timeOf_succ (List.getElem?_eq_getElem (show i < S.length by omega))
  have h2 := timeOf_mono S (show i + 1 ≤ j by omega)
  have := hpos S[i] (List.getElem_mem _)
  omega

theorem s64_time {x : Nat} (h : x < 4294967296) : s64 x ≥ 0 := by unfold s64; rw [if_pos (by omega)]; omega

theorem s64_m1 : ¬ s64 Stts.m1 ≥ 0 := by decide

theorem next_later {S : List Supplied} {time k : Nat} (hk : k < S.length) (h1 : timeOf S k ≤ time)
    (h2 : time < timeOf S (k + 1)) : After S time (timeOf S (k + 1)) := by
  refine ⟨h2, ⟨k + 1, by omega, rfl⟩, fun i hi ht => ?_⟩
  rcases Nat.lt_or_ge k i with g | g
  · exact timeOf_mono S g
  · have := timeOf_mono S g; omega

theorem prev_upTo {S : List Supplied} {time k : Nat} (hk : k < S.length) (h1 : timeOf S k ≤ time)
    (h2 : time < timeOf S (k + 1)) : UpTo S time (timeOf S k) := by
  refine ⟨h1, ⟨k, hk, rfl⟩, fun i hi ht => ?_⟩
  rcases Nat.lt_or_ge k i with g | g
  · have := timeOf_mono S (show k + 1 ≤ i from g); omega
  · exact timeOf_mono S g

/-! ## The theorems -/

/-- The track of C42: a correct history of additions, composition offsets for none or all samples, sync samples. -/
structure Built (h : List Media.Step) (co : List Ctts.Add) (sy : List Stss.Add) (t : Track) (D : Bytes) : Prop where
  rep : ∃ C, Media.Rep t.media (Media.supplied h) D C ∧ Media.Fits (Media.supplied h) D C.length
  tables : Tables t (Media.supplied h).length (!co.isEmpty) (co.flatMap Ctts.Add.given) (sy.flatMap Stss.Add.declared)

theorem built (drefs : Nat) (h : List Media.Step) (hval : Media.AllValid drefs 0 false h)
    (hS : (Media.supplied h).length + 1 < 1073739776) (hC : h.length + 1 < 536869888)
    (hT : ((Media.supplied h).map Supplied.dur).sum < 4294967296) (hD : (Media.dataOf h).length < 4294967296)
    (co : List Ctts.Add) (hco : ∀ a ∈ co, a.Valid) (hfirst : ∀ a, co.head? = some a → a.offs ≠ none)
    (hcl : co = [] ∨ (co.flatMap Ctts.Add.given).length = (Media.supplied h).length)
    (sy : List Stss.Add) (hsy : ∀ a ∈ sy, a.Valid)
    (hsl : sy = [] ∨ (sy.flatMap Stss.Add.declared).length = (Media.supplied h).length) :
    ∃ m c s, runAll Media.apply (Media.create drefs) h = .ok m ∧ runAll Ctts.addBatch ⟨0, none⟩ co = .ok c ∧
      runAll Stss.addBatch ⟨0, none⟩ sy = .ok s ∧ Built h co sy ⟨m, c.ctts, s.stss⟩ (Media.dataOf h) := by
  obtain ⟨m, C, h1, h2, h3⟩ := Media.run_rep drefs h (Media.create drefs) [] [] [] false (Media.rep_create drefs) rfl
    (by simp) hval (by simpa using hS) (by simpa using hC)
    (by simpa using hT) (by simpa using hD)
  rw [List.nil_append, List.nil_append] at h2
  obtain ⟨c, c1, c2, c3⟩ := Reader.ctts_table hco hfirst hcl (by omega)
  obtain ⟨s, s1, s2⟩ := Reader.stss_table hsy hsl (by omega)
  exact ⟨m, c, s, h1, c1, s1, ⟨C, h2, hS, h3, hT, hD⟩, ⟨c2, c3, s2⟩⟩

/-- **C66.** A track is built by any correct history `h` of additions (see C25), with composition offsets added by `co`
and sync samples declared by `sy`, as in C42. Then for every time: if a sample starts at that time or is playing then, the
first such sample is returned, with its bytes, size, times, duration and flags; if there is none, the answer is an error.
Composition times must not be negative, and durations must be below 2^31. The full property has no condition that the
media data is not empty, see `c66_empty_media`. -/
theorem c66_sample_by_time_partial (drefs : Nat) (h : List Media.Step) (hval : Media.AllValid drefs 0 false h)
    (hS : (Media.supplied h).length + 1 < 1073739776) (hC : h.length + 1 < 536869888)
    (hT : ((Media.supplied h).map Supplied.dur).sum < 4294967296) (hD : (Media.dataOf h).length < 4294967296)
    (hdur : ∀ s ∈ Media.supplied h, s.dur < 2147483648)
    (co : List Ctts.Add) (hco : ∀ a ∈ co, a.Valid) (hfirst : ∀ a, co.head? = some a → a.offs ≠ none)
    (hcl : co = [] ∨ (co.flatMap Ctts.Add.given).length = (Media.supplied h).length)
    (hov : ∀ i, i < (Media.supplied h).length →
      0 ≤ timeOf (Media.supplied h) i + s32 ((co.flatMap Ctts.Add.given).getD i 0) ∧
      timeOf (Media.supplied h) i + s32 ((co.flatMap Ctts.Add.given).getD i 0) < 18446744073709551616)
    (sy : List Stss.Add) (hsy : ∀ a ∈ sy, a.Valid)
    (hsl : sy = [] ∨ (sy.flatMap Stss.Add.declared).length = (Media.supplied h).length)
    (hdata : Media.dataOf h ≠ []) :
    ∃ m c s, runAll Media.apply (Media.create drefs) h = .ok m ∧ runAll Ctts.addBatch ⟨0, none⟩ co = .ok c ∧
      runAll Stss.addBatch ⟨0, none⟩ sy = .ok s ∧
      (∀ time k x, FirstAt (Media.supplied h) time k → (Media.supplied h)[k]? = some x → ∃ desc t',
        getAt ⟨m, c.ctts, s.stss⟩ time = .ok (expected (Media.supplied h) (!co.isEmpty) (co.flatMap Ctts.Add.given)
          (sy.flatMap Stss.Add.declared) k x desc, t')) ∧
      (∀ time, (∀ k, ¬ At (Media.supplied h) time k) → getAt ⟨m, c.ctts, s.stss⟩ time = .err .badParam) := by
  obtain ⟨m, c, s, h1, h2, h3, ⟨C, h4, h5⟩, h6⟩ := built drefs h hval hS hC hT hD co hco hfirst hcl sy hsy hsl
  refine ⟨m, c, s, h1, h2, h3, ?_, fun time hk => getAt_none h4 h5 hk⟩
  intro time k x hk hx
  obtain ⟨desc, st, g, -⟩ := getAt_first h4 h5 h6 hk hx (hdur x (List.mem_of_getElem? hx))
    (hov k (List.getElem?_eq_some_iff.mp hx).1) (Or.inr hdata)
  exact ⟨desc, _, g⟩

/-- Every time below the total duration has such a sample, so the theorem says what is returned for each of them. -/
theorem c66_every_time (S : List Supplied) (t : Nat) (h : t < (S.map Supplied.dur).sum) : ∃ k, FirstAt S t k := by
  have : ∃ k, At S t k := by
    induction S generalizing t with
    | nil => simp at h
    | cons a S ih =>
      simp only [List.map_cons, List.sum_cons] at h
      by_cases ha : t < a.dur
      · exact ⟨0, a, rfl, Or.inr ⟨by simp [timeOf], by simpa [timeOf] using ha⟩⟩
      · obtain ⟨k, s, hs, hk⟩ := ih (t - a.dur) (by omega)
        refine ⟨k + 1, s, by simpa using hs, ?_⟩
        have : timeOf (a :: S) (k + 1) = a.dur + timeOf S k := by simp [timeOf]
        omega
  obtain ⟨k, hk⟩ := this
  induction k using Nat.strongRecOn with
  | ind k ih =>
    by_cases hj : ∃ j, j < k ∧ At S t j
    · obtain ⟨j, h1, h2⟩ := hj
      exact ih j h1 h2
    · exact ⟨k, hk, fun j h1 h2 => hj ⟨j, h1, h2⟩⟩

/-- A track with one empty sample, in a file without other media data. -/
def emptySample : List Media.Step := [.add [⟨[], 10⟩] (.each [10]) (.each [0]) (some 1) (fun _ => 0) (fun _ => 0)]

/-- Its sample cannot be had by time, though it can be by number. -/
theorem c66_empty_media : Media.AllValid 1 0 false emptySample ∧ FirstAt (Media.supplied emptySample) 0 0 ∧
    ∃ m x, runAll Media.apply (Media.create 1) emptySample = .ok m ∧ Reader.getSample ⟨m, none, none⟩ 1 = .ok x ∧
      x.1.sample.dts = 0 ∧ getAt ⟨m, none, none⟩ 0 = .err .badParam := by
  refine ⟨by simp [emptySample, Media.AllValid, Media.Step.Valid, Batch.values], ⟨⟨_, rfl, Or.inl rfl⟩, by simp⟩, ?_⟩
  have key : (match runAll Media.apply (Media.create 1) emptySample with
      | .ok m => match Reader.getSample ⟨m, none, none⟩ 1, getAt ⟨m, none, none⟩ 0 with
        | .ok x, .err e => decide (x.1.sample.dts = 0 ∧ e = .badParam)
        | _, _ => false
      | _ => false) = true := by decide +kernel
  split at key
  · rename_i m hm
    split at key
    · rename_i x e hx he
      have := of_decide_eq_true key
      exact ⟨m, x, hm, hx, this.1, by rw [he, this.2]⟩
    · cases key
  · cases key

/-- The answers to the questions for interesting times. Without `MP4NextTimeEdgeOK` a search forward returns the first time
after the given one at which a sample starts or the track ends; with it a search backward returns the last start of a sample
up to the given time. -/
theorem c66_interesting_times (drefs : Nat) (h : List Media.Step) (hval : Media.AllValid drefs 0 false h)
    (hS : (Media.supplied h).length + 1 < 1073739776) (hC : h.length + 1 < 536869888)
    (hT : ((Media.supplied h).map Supplied.dur).sum < 4294967296) (hD : (Media.dataOf h).length < 4294967296)
    (hpos : ∀ s ∈ Media.supplied h, 0 < s.dur) (ctts : Option Ctts.Ctts) (stss : Option Stss.Stss)
    (flags time : Nat) (ht : time < ((Media.supplied h).map Supplied.dur).sum) (hfl : flags ≠ 0) :
    ∃ m, runAll Media.apply (Media.create drefs) h = .ok m ∧
      (flags &&& 16 = 0 → ∃ x, nextTime ⟨m, ctts, stss⟩ flags time 0 = .ok x ∧ After (Media.supplied h) time x) ∧
      (flags &&& 16 ≠ 0 → ∀ dir, dir ≠ 0 → ∃ x, nextTime ⟨m, ctts, stss⟩ flags time dir = .ok x ∧ UpTo (Media.supplied h) time x) := by
  obtain ⟨m, C, h1, h2, h3⟩ := Media.run_rep drefs h (Media.create drefs) [] [] [] false (Media.rep_create drefs) rfl
    (by simp) hval (by simpa using hS) (by simpa using hC) (by simpa using hT) (by simpa using hD)
  rw [List.nil_append, List.nil_append] at h2
  obtain ⟨f, k, s, f1, f2, f3, f4, f5, f6, f7⟩ := nextTimes (t := ⟨m, ctts, stss⟩) h2 ⟨hS, h3, hT, hD⟩ hpos ht
  have hk := (List.getElem?_eq_some_iff.mp f2).1
  refine ⟨m, h1, fun hb => ⟨_, ?_, next_later hk f3 f4⟩, fun hb dir hdir => ⟨_, ?_, prev_upTo hk f3 f4⟩⟩
  · unfold nextTime
    rw [if_neg hfl, f1]
    simp only [Res.bind]
    rw [if_pos trivial, if_neg (fun h => h.2 hb), f5]
  · unfold nextTime
    rw [if_neg hfl, f1]
    simp only [Res.bind]
    rw [if_neg hdir]
    by_cases hs : timeOf (Media.supplied h) k = time ∧ (k = 0 ∨ ((Media.supplied h)[k - 1]?).map Supplied.dur ≠ some s.dur)
    · obtain ⟨g1, -⟩ := f6 hs.1 hs.2
      rw [if_pos ⟨by rw [g1]; exact s64_time (by omega), hb⟩, g1, hs.1]
    · obtain ⟨g1, g2⟩ := f7 (by
        by_cases hq : timeOf (Media.supplied h) k = time
        · right
          by_cases h0 : k = 0
          · exact absurd ⟨hq, Or.inl h0⟩ hs
          · refine ⟨h0, ?_⟩
            by_cases h1 : ((Media.supplied h)[k - 1]?).map Supplied.dur = some s.dur
            · exact h1
            · exact absurd ⟨hq, Or.inr h1⟩ hs
        · exact Or.inl hq)
      rw [if_neg (by rw [g1]; exact fun h => s64_m1 h.1), g2]

/-- The two other questions. With `MP4NextTimeEdgeOK` a search forward should return the first time from the given one on
at which a sample starts or the track ends; without it a search backward should return the last start of a sample before the
given time. This holds unless a sample starts at the given time and has the same duration as the sample before it. What
then happens is said by `c66_edges_missed`. -/
theorem c66_interesting_times_partial (drefs : Nat) (h : List Media.Step) (hval : Media.AllValid drefs 0 false h)
    (hS : (Media.supplied h).length + 1 < 1073739776) (hC : h.length + 1 < 536869888)
    (hT : ((Media.supplied h).map Supplied.dur).sum < 4294967296) (hD : (Media.dataOf h).length < 4294967296)
    (hpos : ∀ s ∈ Media.supplied h, 0 < s.dur) (ctts : Option Ctts.Ctts) (stss : Option Stss.Stss)
    (flags time : Nat) (ht : time < ((Media.supplied h).map Supplied.dur).sum) (hfl : flags ≠ 0)
    (hrun : ∀ k a b, (Media.supplied h)[k]? = some a → (Media.supplied h)[k + 1]? = some b →
      timeOf (Media.supplied h) (k + 1) = time → a.dur ≠ b.dur) :
    ∃ m, runAll Media.apply (Media.create drefs) h = .ok m ∧
      (flags &&& 16 ≠ 0 → ∃ x, nextTime ⟨m, ctts, stss⟩ flags time 0 = .ok x ∧ FromOn (Media.supplied h) time x) ∧
      (flags &&& 16 = 0 → 0 < time → ∀ dir, dir ≠ 0 →
        ∃ x, nextTime ⟨m, ctts, stss⟩ flags time dir = .ok x ∧ Before (Media.supplied h) time x) := by
  obtain ⟨m, C, h1, h2, h3⟩ := Media.run_rep drefs h (Media.create drefs) [] [] [] false (Media.rep_create drefs) rfl
    (by simp) hval (by simpa using hS) (by simpa using hC) (by simpa using hT) (by simpa using hD)
  rw [List.nil_append, List.nil_append] at h2
  obtain ⟨f, k, s, f1, f2, f3, f4, f5, f6, f7⟩ := nextTimes (t := ⟨m, ctts, stss⟩) h2 ⟨hS, h3, hT, hD⟩ hpos ht
  have hk := (List.getElem?_eq_some_iff.mp f2).1
  have hstart : timeOf (Media.supplied h) k = time → (k = 0 ∨ ((Media.supplied h)[k - 1]?).map Supplied.dur ≠ some s.dur) := by
    intro hq
    by_cases h0 : k = 0
    · exact Or.inl h0
    · right
      obtain ⟨j, rfl⟩ : ∃ j, k = j + 1 := ⟨k - 1, by omega⟩
      rw [Nat.add_sub_cancel, List.getElem?_eq_getElem (by omega)]
      intro e
      exact hrun j _ s (List.getElem?_eq_getElem (by omega)) f2 hq (by simpa using e)
  refine ⟨m, h1, fun hb => ?_, fun hb h0 dir hdir => ?_⟩
  · unfold nextTime
    rw [if_neg hfl, f1]
    simp only [Res.bind]
    rw [if_pos trivial]
    by_cases hq : timeOf (Media.supplied h) k = time
    · obtain ⟨g1, -⟩ := f6 hq (hstart hq)
      rw [if_pos ⟨by rw [g1]; exact s64_time (by omega), hb⟩, g1]
      exact ⟨time, rfl, Nat.le_refl _, ⟨k, by omega, hq⟩, fun _ _ h => h⟩
    · obtain ⟨g1, -⟩ := f7 (Or.inl hq)
      rw [if_neg (by rw [g1]; exact fun h => s64_m1 h.1), f5]
      refine ⟨_, rfl, by omega, ⟨k + 1, by omega, rfl⟩, fun i hi hti => ?_⟩
      rcases Nat.lt_or_ge k i with g | g
      · exact timeOf_mono _ g
      · have := timeOf_mono (Media.supplied h) g
        omega
  · unfold nextTime
    rw [if_neg hfl, f1]
    simp only [Res.bind]
    rw [if_neg hdir, if_neg (fun h => h.2 hb)]
    by_cases hq : timeOf (Media.supplied h) k = time
    · obtain ⟨-, g2⟩ := f6 hq (hstart hq)
      have hk0 : k ≠ 0 := by
        rintro rfl
        simp [timeOf] at hq
        omega
      rw [if_neg hk0] at g2
      have hst := timeOf_strict hpos (show k - 1 < k by omega) (by omega)
      refine ⟨_, rfl, by rw [g2]; omega, ⟨k - 1, by omega, g2.symm⟩, fun i hi hti => ?_⟩
      rw [g2]
      rcases Nat.lt_or_ge i k with g | g
      · exact timeOf_mono _ (by omega)
      · have := timeOf_mono (Media.supplied h) g
        omega
    · obtain ⟨-, g2⟩ := f7 (Or.inl hq)
      refine ⟨_, rfl, by rw [g2]; omega, ⟨k, hk, g2.symm⟩, fun i hi hti => ?_⟩
      rw [g2]
      rcases Nat.lt_or_ge k i with g | g
      · have := timeOf_mono (Media.supplied h) (show k + 1 ≤ i from g)
        omega
      · exact timeOf_mono _ g

/-- At the start of any sample that has the same duration as the one before it the answers are wrong: a search forward with
`MP4NextTimeEdgeOK` goes on to the next sample, and a search backward without it stays. -/
theorem c66_edges_missed (drefs : Nat) (h : List Media.Step) (hval : Media.AllValid drefs 0 false h)
    (hS : (Media.supplied h).length + 1 < 1073739776) (hC : h.length + 1 < 536869888)
    (hT : ((Media.supplied h).map Supplied.dur).sum < 4294967296) (hD : (Media.dataOf h).length < 4294967296)
    (hpos : ∀ s ∈ Media.supplied h, 0 < s.dur) (ctts : Option Ctts.Ctts) (stss : Option Stss.Stss)
    (flags k : Nat) (a b : Supplied) (ha : (Media.supplied h)[k]? = some a) (hb : (Media.supplied h)[k + 1]? = some b)
    (hab : a.dur = b.dur) (hfl : flags ≠ 0) :
    ∃ m, runAll Media.apply (Media.create drefs) h = .ok m ∧
      nextTime ⟨m, ctts, stss⟩ flags (timeOf (Media.supplied h) (k + 1)) 0 = .ok (timeOf (Media.supplied h) (k + 2)) ∧
      (∀ dir, dir ≠ 0 → nextTime ⟨m, ctts, stss⟩ flags (timeOf (Media.supplied h) (k + 1)) dir =
        .ok (timeOf (Media.supplied h) (k + 1))) ∧
      ¬ FromOn (Media.supplied h) (timeOf (Media.supplied h) (k + 1)) (timeOf (Media.supplied h) (k + 2)) ∧
      ¬ Before (Media.supplied h) (timeOf (Media.supplied h) (k + 1)) (timeOf (Media.supplied h) (k + 1)) := by
  obtain ⟨m, C, h1, h2, h3⟩ := Media.run_rep drefs h (Media.create drefs) [] [] [] false (Media.rep_create drefs) rfl
    (by simp) hval (by simpa using hS) (by simpa using hC) (by simpa using hT) (by simpa using hD)
  rw [List.nil_append, List.nil_append] at h2
  have hbl := (List.getElem?_eq_some_iff.mp hb).1
  have hbs : timeOf (Media.supplied h) (k + 2) = timeOf (Media.supplied h) (k + 1) + b.dur := timeOf_succ hb
  have hbp := hpos b (List.mem_of_getElem? hb)
  have hba := timeOf_add hb
  obtain ⟨f, k', s, f1, f2, f3, f4, f5, f6, f7⟩ := nextTimes (t := ⟨m, ctts, stss⟩) h2 ⟨hS, h3, hT, hD⟩ hpos
    (time := timeOf (Media.supplied h) (k + 1)) (by omega)
  have hkk : k' = k + 1 := by
    rcases Nat.lt_trichotomy k' (k + 1) with g | g | g
    · have := timeOf_mono (Media.supplied h) (show k' + 1 ≤ k + 1 from g)
      omega
    · exact g
    · have := timeOf_mono (Media.supplied h) (show k + 2 ≤ k' from g)
      omega
  subst hkk
  rw [hb] at f2
  injection f2 with f2
  subst f2
  obtain ⟨g1, g2⟩ := f7 (Or.inr ⟨by omega, by rw [Nat.add_sub_cancel, ha, ← hab]; rfl⟩)
  refine ⟨m, h1, ?_, fun dir hdir => ?_, fun hc => ?_, fun hc => Nat.lt_irrefl _ hc.1⟩
  · unfold nextTime
    rw [if_neg hfl, f1]
    simp only [Res.bind]
    rw [if_pos trivial, if_neg (by rw [g1]; exact fun h => s64_m1 h.1), f5]
  · unfold nextTime
    rw [if_neg hfl, f1]
    simp only [Res.bind]
    rw [if_neg hdir, if_neg (by rw [g1]; exact fun h => s64_m1 h.1), g2]
  · have := hc.2.2 (k + 1) (by omega) (Nat.le_refl _)
    omega

/-! ## Packets -/

/-- An SL packet with a header of sequence number (5 bits), random access flag, flags for the decoding and composition time
stamps, the time stamps (32 bits) and the length of the access unit (32 bits). -/
def slPacket (sequence : Nat) (rap : Bool) (dts : Option Nat) (cts : Nat) (payload : Bytes) : Bytes :=
  UInt8.ofNat (sequence % 32 * 8 + (if rap then 4 else 0) + (if dts.isSome then 2 else 0) + 1) ::
    ((match dts with | some d => be 4 d | none => []) ++ be 4 cts ++ be 4 payload.length ++ payload)

theorem be4_mod (v : Nat) : be 4 (v % 4294967296) = be 4 v := by
  have h : ∀ k, k < 4 → UInt8.ofNat (v % 4294967296 / 256 ^ k) = UInt8.ofNat (v / 256 ^ k) := by
    intro k hk
    apply UInt8.toNat_inj.mp
    simp only [UInt8.toNat_ofNat']
    match k, hk with
    | 0, _ => omega
    | 1, _ => omega
    | 2, _ => omega
    | 3, _ => omega
  simp only [be]
  rw [h 3 (by omega), h 2 (by omega), h 1 (by omega), h 0 (by omega)]

/-- **C66, packets.** The packet for a time is the SL packet of the sample returned for that time. -/
theorem c66_packet (t t' : Track) (sequence time : Nat) (S : List Supplied) (has : Bool) (offs : List Nat) (sync : List Bool)
    (k desc : Nat) (s : Supplied) (hg : getAt t time = .ok (expected S has offs sync k s desc, t')) :
    packet t sequence time = .ok ((slPacket sequence (sync.getD k true) (if has then some (timeOf S k) else none)
      (timeOf S k + s32 (offs.getD k 0)).toNat s.bytes, timeOf S k), t') := by
  unfold packet
  rw [hg]
  simp only [Res.bind, put32]
  rw [be4_mod, be4_mod]
  have hval : ∀ a b : Bool, (((sequence &&& 31) <<< 3 % 256) ||| (if a then 4 else 0) ||| (if b then 2 else 0) ||| 1) =
      sequence % 32 * 8 + (if a then 4 else 0) + (if b then 2 else 0) + 1 := by
    intro a b
    rw [show (31 : Nat) = 2 ^ 5 - 1 from rfl, Nat.and_two_pow_sub_one_eq_mod, Nat.shiftLeft_eq]
    have : sequence % 2 ^ 5 < 32 := Nat.mod_lt _ (by omega)
    have e : sequence % 32 = sequence % 2 ^ 5 := rfl
    rw [e]
    generalize sequence % 2 ^ 5 = n at *
    revert n
    cases a <;> cases b <;> decide
  have h1 : ((expected S has offs sync k s desc).flags &&& 1 = 0) ↔ sync.getD k true = true := by
    show ((if sync.getD k true then 0 else 1) + (if has then 2 else 0)) &&& _ = 0 ↔ _
    cases sync.getD k true <;> cases has <;> decide
  have h2 : ((expected S has offs sync k s desc).flags &&& 2 ≠ 0) ↔ has = true := by
    show ((if sync.getD k true then 0 else 1) + (if has then 2 else 0)) &&& _ ≠ 0 ↔ _
    cases sync.getD k true <;> cases has <;> decide
  simp only [h1, h2, hval]
  unfold slPacket expected
  cases has <;> simp

/-! ## Cases that meet the hypotheses -/

/-- The five samples of C25 start at 0, 10, 20, 27 and 37. -/
example (jb : Nat → UInt8) (j : Nat → Nat) : ∃ m c s, runAll Media.apply (Media.create 1) (Media.demo jb j) = .ok m ∧
    runAll Ctts.addBatch ⟨0, none⟩ [⟨2, some (.each [5, 0])⟩, ⟨3, some (.each [3, 4294967295, 2])⟩] = .ok c ∧
    runAll Stss.addBatch ⟨0, none⟩ [⟨5, [1, 4], j⟩] = .ok s ∧
    (∃ d t', getAt ⟨m, c.ctts, s.stss⟩ 29 = .ok (⟨[], 0, 27, 26, 10, d, 2⟩, t')) ∧
    (∃ d t', getAt ⟨m, c.ctts, s.stss⟩ 45 = .ok (⟨[6, 7, 8], 3, 37, 39, 9, d, 3⟩, t')) ∧
    getAt ⟨m, c.ctts, s.stss⟩ 46 = .err .badParam := by
  have e : Media.supplied (Media.demo jb j) =
      [⟨[1, 2], 10⟩, ⟨[3, 4], 10⟩, ⟨[5], 7⟩, ⟨[], 10⟩, ⟨[6, 7, 8], 9⟩] := rfl
  obtain ⟨m, c, s, h1, h2, h3, h4, h5⟩ := c66_sample_by_time_partial 1 (Media.demo jb j)
    (by simp [Media.demo, Media.AllValid, Media.Step.Valid, Media.Step.samples, Media.Step.brings, Batch.values, List.replicate])
    (by rw [e]; decide) (by simp [Media.demo]) (by rw [e]; decide) (by simp [Media.demo, Media.dataOf, Media.Step.data])
    (by rw [e]; decide)
    [⟨2, some (.each [5, 0])⟩, ⟨3, some (.each [3, 4294967295, 2])⟩]
    (by simp [Ctts.Add.Valid, Batch.count, Batch.array]) (by simp) (by rw [e]; decide) (by rw [e]; decide)
    [⟨5, [1, 4], j⟩] (by simp [Stss.Add.Valid]) (by rw [e]; simp [Stss.Add.declared])
    (by simp [Media.demo, Media.dataOf, Media.Step.data])
  rw [e] at h4 h5
  have e2 : [(⟨5, [1, 4], j⟩ : Stss.Add)].flatMap Stss.Add.declared = [true, false, false, true, false] := by
    simp [Stss.Add.declared, List.range, List.range.loop]
  rw [e2] at h4
  obtain ⟨d, t', g⟩ := h4 29 3 ⟨[], 10⟩ (by decide) rfl
  obtain ⟨d', t'', g'⟩ := h4 45 4 ⟨[6, 7, 8], 9⟩ (by decide) rfl
  refine ⟨m, c, s, h1, h2, h3, ⟨d, t', g⟩, ⟨d', t'', g'⟩, h5 46 ?_⟩
  intro i
  match i with
  | 0 | 1 | 2 | 3 | 4 => decide
  | n + 5 => rintro ⟨s', hs', -⟩; simp at hs'

/-- The third sample, at 20, has another duration than the second; the second, at 10, has that of the first. The fourth is
one of the two that are sync samples, and the search for the next sync sample from 0 finds the second. -/
theorem c66_sync_ignored (jb : Nat → UInt8) (j : Nat → Nat) : ∃ m s, runAll Media.apply (Media.create 1) (Media.demo jb j) = .ok m ∧
    runAll Stss.addBatch ⟨0, none⟩ [⟨5, [1, 4], j⟩] = .ok s ∧ nextTime ⟨m, none, s.stss⟩ 8 0 0 = .ok 10 ∧
    FirstAt (Media.supplied (Media.demo jb j)) 10 1 ∧ Stss.isSync ⟨0, s.stss⟩ 2 = .ok false := by
  have e : Media.supplied (Media.demo jb j) =
      [⟨[1, 2], 10⟩, ⟨[3, 4], 10⟩, ⟨[5], 7⟩, ⟨[], 10⟩, ⟨[6, 7, 8], 9⟩] := rfl
  obtain ⟨s, s1, s2⟩ := Reader.stss_table (sy := [⟨5, [1, 4], j⟩]) (N := 5) (by simp [Stss.Add.Valid])
    (by simp [Stss.Add.declared]) (by decide)
  obtain ⟨m, h1, h2, -⟩ := c66_interesting_times 1 (Media.demo jb j)
    (by simp [Media.demo, Media.AllValid, Media.Step.Valid, Media.Step.samples, Media.Step.brings, Batch.values, List.replicate])
    (by rw [e]; decide) (by simp [Media.demo]) (by rw [e]; decide) (by simp [Media.demo, Media.dataOf, Media.Step.data])
    (by rw [e]; decide) none s.stss 8 0 (by rw [e]; decide) (by decide)
  obtain ⟨x, x1, x2⟩ := h2 rfl
  rw [e] at x2
  have hx : x = 10 := by
    obtain ⟨y1, ⟨i, y2, y3⟩, y4⟩ := x2
    have h10 := y4 1 (by decide) (by decide)
    rw [show timeOf [⟨[1, 2], 10⟩, ⟨[3, 4], 10⟩, ⟨[5], 7⟩, ⟨[], 10⟩, ⟨[6, 7, 8], 9⟩] 1 = 10 from rfl] at h10
    match i with
    | 0 => rw [show timeOf [⟨[1, 2], 10⟩, ⟨[3, 4], 10⟩, ⟨[5], 7⟩, ⟨[], 10⟩, ⟨[6, 7, 8], 9⟩] 0 = 0 from rfl] at y3; omega
    | n + 1 =>
      have := timeOf_mono [⟨[1, 2], 10⟩, ⟨[3, 4], 10⟩, ⟨[5], 7⟩, ⟨[], 10⟩, ⟨[6, 7, 8], 9⟩] (show 1 ≤ n + 1 by omega)
      rw [show timeOf [⟨[1, 2], 10⟩, ⟨[3, 4], 10⟩, ⟨[5], 7⟩, ⟨[], 10⟩, ⟨[6, 7, 8], 9⟩] 1 = 10 from rfl] at this
      omega
  subst hx
  refine ⟨m, s, h1, s1, x1, by rw [e]; decide, ?_⟩
  rw [s2 1 (by decide)]
  simp [Stss.Add.declared, List.range, List.range.loop]

/-- The hypotheses of the partial theorem, at 20 and at 15, and of `c66_edges_missed`, at 10. -/
example (jb : Nat → UInt8) (j : Nat → Nat) :
    (∀ t, t = 20 ∨ t = 15 → ∀ k a b, (Media.supplied (Media.demo jb j))[k]? = some a → (Media.supplied (Media.demo jb j))[k + 1]? = some b →
      timeOf (Media.supplied (Media.demo jb j)) (k + 1) = t → a.dur ≠ b.dur) ∧
    timeOf (Media.supplied (Media.demo jb j)) 1 = 10 ∧ (Media.supplied (Media.demo jb j))[0]? = some ⟨[1, 2], 10⟩ ∧
    (Media.supplied (Media.demo jb j))[1]? = some ⟨[3, 4], 10⟩ := by
  refine ⟨?_, rfl, rfl, rfl⟩
  have e : Media.supplied (Media.demo jb j) =
      [⟨[1, 2], 10⟩, ⟨[3, 4], 10⟩, ⟨[5], 7⟩, ⟨[], 10⟩, ⟨[6, 7, 8], 9⟩] := rfl
  rw [e]
  rintro t ht k a b ha hb hk
  match k with
  | 0 => simp [timeOf] at hk; omega
  | 1 => simp at ha hb; subst ha hb; decide
  | 2 => simp [timeOf] at hk; omega
  | 3 => simp [timeOf] at hk; omega
  | n + 4 => simp at hb

/-- A packet: sequence number 37, the fifth sample. -/
example : slPacket 37 false (some 37) 39 [6, 7, 8] = [43, 0, 0, 0, 37, 0, 0, 0, 39, 0, 0, 0, 3, 6, 7, 8] := by decide

end Verif.ByTime
