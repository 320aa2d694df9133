import Verif.Props.C42
import Verif.Props.C08
import Verif.Props.C18

/-!
# C53 — reading a track with edits yields the samples of each edit, in order, then end of file
-/

namespace Verif.Reader

open Media (Supplied)

/-! ## What a reader should return -/

/-- The sample numbers (from 0) that an edit shows: an edit starts at media time `T` and is `L` long, and
shows the samples whose time overlaps the interval from `T` to `T + L`. -/
def shown (S : List Supplied) (T L : Nat) : List Nat :=
  (List.range S.length).filter fun i => decide (T < timeOf S (i + 1) ∧ timeOf S i < T + L)

/-- What is returned for sample `i` in an edit that starts at time `B` of the presentation: the times are
moved by the difference, and the duration ends where the edit ends. -/
def editUnit (S : List Supplied) (has : Bool) (offs : List Nat) (sync : List Bool) (T B L i : Nat) : AccessUnit :=
  { unitOf S has offs sync i (S.getD i ⟨[], 0⟩) with
    dts := (timeOf S i : Int) - T + B
    cts := (timeOf S i : Int) - T + B + s32 (offs.getD i 0)
    duration := min (timeOf S (i + 1)) (T + L) - timeOf S i }

/-- The edits one after the other from movie time `M` on; empty edits only take time. Movie times are
converted to the scale of the media, rounding down. -/
def movieUnits (S : List Supplied) (has : Bool) (offs : List Nat) (sync : List Bool) (mediaScale movieScale : Nat) :
    Nat → List Elst.Entry → List AccessUnit
  | _, [] => []
  | M, e :: es =>
    (if e.empty then [] else
      (shown S e.mediaTime.toNat (mediaScale * (M + e.duration) / movieScale - mediaScale * M / movieScale)).map
        (editUnit S has offs sync e.mediaTime.toNat (mediaScale * M / movieScale)
          (mediaScale * (M + e.duration) / movieScale - mediaScale * M / movieScale))) ++
    movieUnits S has offs sync mediaScale movieScale (M + e.duration) es

/-- The results of `k` calls: all of these, then end of file. -/
def padded (k : Nat) (U : List AccessUnit) : List (Res AccessUnit) :=
  (List.range k).map fun i => match U[i]? with
    | some u => .ok u
    | none => .err .eof

/-- An edit list that fits the media: the edits that are not empty lie in the media and show at least one
unit of time. -/
def Inside (S : List Supplied) (mediaScale movieScale : Nat) : Nat → List Elst.Entry → Prop
  | _, [] => True
  | M, e :: es =>
    (e.empty = false → 0 ≤ e.mediaTime ∧
      mediaScale * M / movieScale < mediaScale * (M + e.duration) / movieScale ∧
      e.mediaTime.toNat + (mediaScale * (M + e.duration) / movieScale - mediaScale * M / movieScale) ≤
        timeOf S S.length) ∧
    Inside S mediaScale movieScale (M + e.duration) es

def InS32 (x : Int) : Prop := -2147483648 ≤ x ∧ x < 2147483648

end Verif.Reader

/-! ## Times at and after the end of the media -/

namespace Verif.Stts

theorem findLoop_end (t : Nat) : ∀ (es : List (Nat × Nat)) (T sn : Nat) (f : Find), es ≠ [] →
    (∀ e ∈ es, 0 < e.1 ∧ 0 < e.2 ∧ e.1 * e.2 < 4294967296) → T + (expand es).sum < 18446744073709551615 →
    sn + (expand es).length < 4294967296 → T + (expand es).sum ≤ t →
    ∃ r, findLoop t es T sn f = .ok r ∧
      (T + (expand es).sum = t → r.exact = t ∧ r.num = sn + (expand es).length) ∧
      (T + (expand es).sum < t → r.exact = f.exact ∧ r.prior = T + (expand es).sum) := by
  intro es
  induction es with
  | nil => intro _ _ _ h; exact absurd rfl h
  | cons e es ih =>
    obtain ⟨c, d⟩ := e
    intro T sn f _ hes hsum hcnt htot
    obtain ⟨hc, hd, hcd⟩ := hes (c, d) (by simp)
    simp only at hc hd hcd
    have hcd0 : 0 < c * d := Nat.mul_pos hc hd
    have hdle : d ≤ c * d := Nat.le_mul_of_pos_left d hc
    simp only [expand_cons, List.sum_append, sum_replicate] at hsum htot ⊢
    simp only [expand_cons, List.length_append, List.length_replicate] at hcnt ⊢
    have hdc : d * c % 4294967296 = c * d := by rw [Nat.mul_comm, Nat.mod_eq_of_lt hcd]
    have hfin : (T + c * d) % 18446744073709551616 = T + c * d := Nat.mod_eq_of_lt (by omega)
    have hsnc : (sn + c) % 4294967296 = sn + c := Nat.mod_eq_of_lt (by omega)
    unfold findLoop
    simp only [hdc, hfin, hsnc]
    have hne : ¬ T = t := by omega
    rw [if_neg (by omega), if_neg (by omega)]
    simp only [if_neg hne]
    by_cases hlt : T + c * d < t
    · rw [if_pos hlt]
      cases es with
      | nil => exact ⟨_, rfl, by simp; omega, by simp⟩
      | cons e2 es =>
        obtain ⟨r, r1, r2, r3⟩ := ih (T + c * d) (sn + c) { f with prior := T + c * d } (by simp)
          (fun e he => hes e (by simp [he])) (by omega) (by omega) (by omega)
        refine ⟨r, r1, ?_, ?_⟩
        · intro h
          have := r2 (by omega)
          exact ⟨this.1, by omega⟩
        · intro h
          have := r3 (by omega)
          exact ⟨this.1, by omega⟩
    · have hnil : es = [] := by
        cases es with
        | nil => rfl
        | cons e2 es =>
          have := hes e2 (by simp)
          have h2 : 0 < e2.1 * e2.2 := Nat.mul_pos this.1 this.2.1
          simp only [expand_cons, List.sum_append, sum_replicate] at htot
          omega
      subst hnil
      have heq : T + c * d = t := by simp at htot; omega
      rw [if_neg hlt, if_pos heq]
      refine ⟨_, rfl, ?_, ?_⟩
      · intro _; exact ⟨heq, by simp⟩
      · intro h; simp at h; omega

/-- At or after the end of the media the number after the last sample is returned. -/
theorem sampleNum_end {es : List (Nat × Nat)} (hne : es ≠ []) (hes : NoOverflow es)
    (hpos : ∀ e ∈ es, 0 < e.1 ∧ 0 < e.2) {t : Nat} (ht : (expand es).sum ≤ t)
    (hs : (expand es).sum < 18446744073709551615) (ht' : t < 18446744073709551615) :
    ∃ dts d, mediaTimeToSampleNum es t = .ok ((expand es).length + 1, dts, d) := by
  have h := hes.count
  have key := fun (t : Nat) (htt : (expand es).sum ≤ t) => findLoop_end t es 0 1 ⟨m1, m1, m1, 0, none, false⟩ hne
    (fun e he => ⟨(hpos e he).1, (hpos e he).2, hes.run e he⟩) (by omega) (by omega) (by omega)
  obtain ⟨r, r1, r2, r3⟩ := key t ht
  unfold mediaTimeToSampleNum findSamples
  rw [r1]
  dsimp only
  by_cases hx : (expand es).sum = t
  · obtain ⟨a, b⟩ := r2 (by omega)
    rw [if_pos (by rw [a]; unfold m1; omega)]
    exact ⟨r.exact, r.dur, by rw [b, Nat.add_comm]⟩
  · obtain ⟨a, b⟩ := r3 (by omega)
    obtain ⟨g, g1, g2, -⟩ := key _ (Nat.le_refl _)
    obtain ⟨g3, g4⟩ := g2 (by omega)
    rw [if_neg (by simp [a]), if_pos (by rw [b]; unfold m1; omega), b, Nat.zero_add, g1]
    dsimp only
    rw [if_neg (by rw [g4]; unfold m1; omega)]
    exact ⟨g.exact, g.dur, by rw [g4, Nat.add_comm]⟩

end Verif.Stts

namespace Verif.Reader

open Media (Supplied)

/-! ## Times in the media -/

theorem timeOf_succ {S : List Supplied} {i : Nat} (hi : i < S.length) : timeOf S (i + 1) = timeOf S i + S[i].dur := by
  unfold timeOf
  rw [List.take_succ_eq_append_getElem hi, List.map_append, List.sum_append]
  simp

theorem timeOf_mono {S : List Supplied} {i j : Nat} (h : i ≤ j) : timeOf S i ≤ timeOf S j := by
  obtain ⟨k, rfl⟩ := Nat.le.dest h
  unfold timeOf
  rw [List.take_add, List.map_append, List.sum_append]
  omega

theorem timeOf_le {S : List Supplied} (i : Nat) : timeOf S i ≤ timeOf S S.length := by
  rcases Nat.le_total i S.length with h | h
  · exact timeOf_mono h
  · unfold timeOf; rw [List.take_of_length_le h, List.take_length]; omega

theorem timeOf_length (S : List Supplied) : timeOf S S.length = (S.map Supplied.dur).sum := by
  unfold timeOf; rw [List.take_length]

/-- What is assumed of the media throughout: the limits, and no sample of duration 0. -/
structure Sound (S : List Supplied) (D : Bytes) (C : List (Nat × List Bytes)) : Prop where
  fits : Media.Fits S D C.length
  time : timeOf S S.length < 2147483648
  pos : ∀ s ∈ S, 0 < s.dur

/-- A track whose tables describe these samples. -/
structure Good (t : Track) (S : List Supplied) (D : Bytes) (C : List (Nat × List Bytes)) (has : Bool)
    (offs : List Nat) (sync : List Bool) : Prop where
  rep : Media.Rep t.media S D C
  tables : Tables t S.length has offs sync

section
variable {S : List Supplied} {D : Bytes} {C : List (Nat × List Bytes)} {has : Bool} {offs : List Nat} {sync : List Bool}
  {t : Track}

theorem Good.entries (hG : Good t S D C has offs sync) (hs : Sound S D C) :
    Stts.NoOverflow t.media.stts.entries ∧ ∀ e ∈ t.media.stts.entries, 0 < e.1 ∧ 0 < e.2 := by
  refine ⟨hG.rep.noOverflow hs.fits.samples hs.fits.time, fun e he => ?_⟩
  have h1 := hG.rep.runs.1 e he
  refine ⟨h1, ?_⟩
  have : e.2 ∈ expand t.media.stts.entries := by
    unfold expand
    rw [List.mem_flatMap]
    exact ⟨e, he, by rw [List.mem_replicate]; exact ⟨by omega, rfl⟩⟩
  rw [hG.rep.times] at this
  obtain ⟨s, hs', e'⟩ := List.mem_map.mp this
  rw [← e']
  exact hs.pos s hs'

/-- The sample at a time in the media. -/
theorem Good.atTime (hG : Good t S D C has offs sync) (hs : Sound S D C) {T : Nat} (hT : T < timeOf S S.length) :
    ∃ f, f < S.length ∧ sampleAt t T = .ok (f + 1) ∧ timeOf S f ≤ T ∧ T < timeOf S (f + 1) := by
  obtain ⟨h1, h2⟩ := hG.entries hs
  obtain ⟨k, d, dts, g1, ⟨p1, p2, p3⟩, -⟩ := Stts.c08_api_partial t.media.stts.entries h1 h2 T
    (by rw [hG.rep.times, ← timeOf_length]; exact hT)
  rw [hG.rep.times] at p1 p2 p3
  rw [startOf_timeOf] at p2 p3
  have hk : k < S.length := by
    have := (List.getElem?_eq_some_iff.mp p1).1
    rwa [List.length_map] at this
  have hd : S[k].dur = d := by
    rw [List.getElem?_map, List.getElem?_eq_getElem hk] at p1
    simpa using p1
  refine ⟨k, hk, ?_, p2, ?_⟩
  · unfold Reader.sampleAt; rw [g1]; rfl
  · rw [timeOf_succ hk, hd]; exact p3

/-- At the end of an edit, which may be after the media. -/
theorem Good.atEnd (hG : Good t S D C has offs sync) (hs : Sound S D C) {T T' f : Nat} (hf : f < S.length)
    (h1 : timeOf S f ≤ T) (h2 : T < timeOf S (f + 1)) (hTT : T ≤ T') (hT' : T' < 18446744073709551615) :
    ∃ l, sampleAt t T' = .ok l ∧ f + 1 ≤ l := by
  rcases Nat.lt_or_ge T' (timeOf S S.length) with h | h
  · obtain ⟨g, g1, g2, g3, g4⟩ := hG.atTime hs h
    refine ⟨g + 1, g2, ?_⟩
    rcases Nat.lt_or_ge g f with hlt | hge
    · have := timeOf_mono (S := S) (show g + 1 ≤ f from hlt)
      omega
    · omega
  · obtain ⟨e1, e2⟩ := hG.entries hs
    have hlen : (expand t.media.stts.entries).length = S.length := by rw [hG.rep.times, List.length_map]
    have hsum : (expand t.media.stts.entries).sum = timeOf S S.length := by rw [hG.rep.times, timeOf_length]
    have := hs.time
    obtain ⟨dts, d, g⟩ := Stts.sampleNum_end (t := T') (es := t.media.stts.entries)
      (by intro e; rw [e] at hlen; simp at hlen; omega) e1 e2 (by omega) (by omega) hT'
    refine ⟨S.length + 1, ?_, by omega⟩
    unfold Reader.sampleAt; rw [g, hlen]; rfl

/-! ## Inside an edit -/

/-- The reader is at sample `i` of the edit `k` (from 0), which starts at media time `T` and is shown from
`B` to `E`. -/
structure InEdit (r : Reader) (es : List Elst.Entry) (mediaScale movieScale k T B E i : Nat) : Prop where
  elst : r.elst = some es
  segments : r.segments = es.length
  nextSegment : r.nextSegment = k + 1
  mediaTime : r.mediaTime = T
  beginTime : r.beginTime = B
  endTime : r.endTime = E
  mediaScale : r.mediaScale = mediaScale
  movieScale : r.movieScale = movieScale
  next : r.next = i + 1

/-- What is left of an edit from sample `i` on. -/
def leftOf (S : List Supplied) (T L i : Nat) : List Nat :=
  (List.range' i (S.length - i)).filter fun j => decide (timeOf S j < T + L)

theorem leftOf_last {T L i : Nat} (hi : i < S.length) (h1 : timeOf S i < T + L)
    (h2 : T + L ≤ timeOf S (i + 1)) : leftOf S T L i = [i] := by
  unfold leftOf
  rw [show S.length - i = (S.length - (i + 1)) + 1 by omega, List.range'_succ, List.filter_cons, if_pos (by simpa using h1)]
  congr 1
  apply List.filter_eq_nil_iff.mpr
  intro j hj
  rw [List.mem_range'_1] at hj
  have := timeOf_mono (S := S) (show i + 1 ≤ j from hj.1)
  simp only [decide_eq_true_eq]
  omega

theorem leftOf_more {T L i : Nat} (hi : i < S.length) (h1 : timeOf S i < T + L) :
    leftOf S T L i = i :: leftOf S T L (i + 1) := by
  unfold leftOf
  rw [show S.length - i = (S.length - (i + 1)) + 1 by omega, List.range'_succ, List.filter_cons, if_pos (by simpa using h1)]

theorem shown_eq {T L f : Nat} (hf : f ≤ S.length) (h1 : timeOf S f ≤ T) (h2 : T < timeOf S (f + 1)) :
    shown S T L = leftOf S T L f := by
  unfold shown leftOf
  have e : List.range S.length = List.range f ++ List.range' f (S.length - f) := by
    rw [List.range_eq_range', List.range_eq_range']
    have := List.range'_append (s := 0) (m := f) (n := S.length - f) (step := 1)
    simp only [Nat.one_mul, Nat.zero_add] at this
    rw [this]
    congr 1
    omega
  rw [e, List.filter_append]
  have e1 : (List.range f).filter (fun i => decide (T < timeOf S (i + 1) ∧ timeOf S i < T + L)) = [] := by
    apply List.filter_eq_nil_iff.mpr
    intro j hj
    have := timeOf_mono (S := S) (show j + 1 ≤ f from List.mem_range.mp hj)
    simp only [decide_eq_true_eq]
    omega
  rw [e1, List.nil_append]
  apply List.filter_congr
  intro j hj
  rw [List.mem_range'_1] at hj
  have := timeOf_mono (S := S) (show f + 1 ≤ j + 1 by omega)
  congr 1
  apply propext
  constructor
  · exact fun h => h.2
  · exact fun h => ⟨by omega, h⟩


/-! ## Entering an edit -/

/-- Entering an edit that is not empty. -/
theorem enter_ok (hG : Good t S D C has offs sync) (hs : Sound S D C) {es : List Elst.Entry} {r : Reader}
    {k : Nat} {e : Elst.Entry} {M : Nat} (hk : es[k]? = some e) (he : e.empty = false)
    (hM : M = Elst.segmentStart es k) (hmv : 0 < r.movieScale)
    (hsum : (es.map Elst.Entry.duration).sum < 18446744073709551616)
    (hE : r.mediaScale * (M + e.duration) < 18446744073709551616)
    (h0 : 0 ≤ e.mediaTime) (hB : r.mediaScale * M / r.movieScale < r.mediaScale * (M + e.duration) / r.movieScale)
    (hT : e.mediaTime.toNat + (r.mediaScale * (M + e.duration) / r.movieScale - r.mediaScale * M / r.movieScale) ≤
      timeOf S S.length)
    (h1 : r.elst = some es) (h2 : r.segments = es.length) (h3 : r.nextSegment = k + 1) :
    ∃ r' f, enterSegment t es r = (r', .ok ()) ∧ f < S.length ∧ timeOf S f ≤ e.mediaTime.toNat ∧
      e.mediaTime.toNat < timeOf S (f + 1) ∧
      InEdit r' es r.mediaScale r.movieScale k e.mediaTime.toNat (r.mediaScale * M / r.movieScale)
        (r.mediaScale * (M + e.duration) / r.movieScale) f := by
  have hst := (Elst.c45_segment_times es hsum).1 k e hk
  rw [he, ← hM] at hst
  simp only [Bool.false_eq_true, if_false] at hst
  obtain ⟨f, f1, f2, f3, f4⟩ := hG.atTime hs (T := e.mediaTime.toNat) (by omega)
  have ht := hs.time
  have hu : u64i e.mediaTime = e.mediaTime.toNat := by unfold u64i; omega
  have hMd : M + e.duration < 18446744073709551616 := by
    have : Elst.segmentStart es k + e.duration ≤ (es.map Elst.Entry.duration).sum := by
      have hlt := (List.getElem?_eq_some_iff.mp hk).1
      have hx := (List.getElem?_eq_some_iff.mp hk).2
      unfold Elst.segmentStart startOf
      have hd := List.take_append_drop k (es.map Elst.Entry.duration)
      rw [List.drop_eq_getElem_cons (by rw [List.length_map]; exact hlt)] at hd
      conv => rhs; rw [← hd]
      rw [List.sum_append, List.sum_cons, List.getElem_map, hx]
      omega
    omega
  have hb1 : r.mediaScale * e.duration ≤ r.mediaScale * (M + e.duration) := Nat.mul_le_mul_left _ (by omega)
  have hb2 : r.mediaScale * M ≤ r.mediaScale * (M + e.duration) := Nat.mul_le_mul_left _ (by omega)
  have hb3 : r.mediaScale * M / r.movieScale + r.mediaScale * e.duration / r.movieScale ≤
      r.mediaScale * (M + e.duration) / r.movieScale := by
    rw [Nat.mul_add, Nat.le_div_iff_mul_le hmv, Nat.add_mul]
    exact Nat.add_le_add (Nat.div_mul_le_self _ _) (Nat.div_mul_le_self _ _)
  have m1 : (M + e.duration) % 18446744073709551616 = M + e.duration := Nat.mod_eq_of_lt hMd
  have m2 : r.mediaScale * (M + e.duration) % 18446744073709551616 = r.mediaScale * (M + e.duration) :=
    Nat.mod_eq_of_lt (by omega)
  have m3 : r.mediaScale * e.duration % 18446744073709551616 = r.mediaScale * e.duration := Nat.mod_eq_of_lt (by omega)
  have m4 : r.mediaScale * M % 18446744073709551616 = r.mediaScale * M := Nat.mod_eq_of_lt (by omega)
  have m5 : (e.mediaTime.toNat + r.mediaScale * e.duration / r.movieScale) % 18446744073709551616 =
      e.mediaTime.toNat + r.mediaScale * e.duration / r.movieScale := Nat.mod_eq_of_lt (by omega)
  obtain ⟨l, l1, l2⟩ := hG.atEnd hs f1 f3 f4
    (T' := e.mediaTime.toNat + r.mediaScale * e.duration / r.movieScale) (Nat.le_add_right _ _) (by omega)
  unfold enterSegment
  rw [h3, hst]
  dsimp only
  rw [hu, f2]
  dsimp only
  rw [if_neg (by omega), m3, m5, l1]
  dsimp only
  rw [if_neg (by omega), m1, m2, m4]
  exact ⟨_, f, rfl, f1, f3, f4, h1, h2, rfl, by show e.mediaTime = _; omega, rfl, rfl, rfl, rfl, rfl⟩

theorem skip_ok {es : List Elst.Entry} : ∀ (A : List Elst.Entry) {k : Nat} {e : Elst.Entry} {B : List Elst.Entry} (fuel : Nat),
    es.drop k = A ++ e :: B → (∀ a ∈ A, a.empty = true) → e.empty = false → es.length < 4294967295 →
    A.length < fuel → skipEmpty es es.length fuel (k + 1) = (k + A.length + 1, .ok ())
  | [], k, e, B, fuel + 1, hd, _, he, _, _ => by
    have hk : es[k]? = some e := by
      have := congrArg (fun l => l[0]?) hd
      simpa using this
    have hlt := (List.getElem?_eq_some_iff.mp hk).1
    have : Elst.isEmptyEdit es (k + 1) = .ok false := by
      unfold Elst.isEmptyEdit
      rw [if_neg (by omega), if_neg (by omega), Nat.add_sub_cancel, hk, ← he]
    unfold skipEmpty
    rw [this]
    rfl
  | a :: A, k, e, B, fuel + 1, hd, hA, he, hl, hf => by
    have hk : es[k]? = some a := by
      have := congrArg (fun l => l[0]?) hd
      simpa using this
    have hlt := (List.getElem?_eq_some_iff.mp hk).1
    have hd' : es.drop (k + 1) = A ++ e :: B := by
      have := congrArg (List.drop 1) hd
      rw [List.drop_drop] at this
      simpa using this
    have hlt2 : k + 1 < es.length := by
      have := congrArg List.length hd'
      simp at this
      omega
    have : Elst.isEmptyEdit es (k + 1) = .ok true := by
      unfold Elst.isEmptyEdit
      rw [if_neg (by omega), if_neg (by omega), Nat.add_sub_cancel, hk, ← hA a (by simp)]
    have ih := skip_ok A (k := k + 1) fuel hd' (fun x hx => hA x (by simp [hx])) he hl (by simp at hf; omega)
    unfold skipEmpty
    rw [this]
    dsimp only
    rw [if_neg (by omega), Nat.mod_eq_of_lt (by omega), ih]
    simp only [List.length_cons]
    congr 1
    omega

theorem split_last : ∀ (l : List Elst.Entry), (∃ e, l.getLast? = some e ∧ e.empty = false) →
    ∃ A e B, l = A ++ e :: B ∧ (∀ a ∈ A, a.empty = true) ∧ e.empty = false
  | [], h => by obtain ⟨e, h, _⟩ := h; simp at h
  | a :: l, h => by
    cases ha : a.empty with
    | false => exact ⟨[], a, l, rfl, by simp, ha⟩
    | true =>
      have hl : ∃ e, l.getLast? = some e ∧ e.empty = false := by
        obtain ⟨e, h1, h2⟩ := h
        cases l with
        | nil => simp at h1; subst h1; rw [ha] at h2; cases h2
        | cons b l => exact ⟨e, by simpa [List.getLast?_cons_cons] using h1, h2⟩
      obtain ⟨A, e, B, h1, h2, h3⟩ := split_last l hl
      refine ⟨a :: A, e, B, by rw [h1]; rfl, ?_, h3⟩
      intro x hx
      rcases List.mem_cons.mp hx with rfl | hx
      · exact ha
      · exact h2 x hx

/-! ## Where a reader is, and what is left -/

/-- What is left for a reader: nothing, or the rest of an edit and the edits after it. -/
def Left (S : List Supplied) (has : Bool) (offs : List Nat) (sync : List Bool) (mediaScale movieScale : Nat)
    (es : List Elst.Entry) (r : Reader) (U : List AccessUnit) : Prop :=
  (r.segments < r.nextSegment ∧ U = []) ∨
  ∃ k e i T M B E, es[k]? = some e ∧ M = Elst.segmentStart es k ∧ T = e.mediaTime.toNat ∧
    B = mediaScale * M / movieScale ∧ E = mediaScale * (M + e.duration) / movieScale ∧ B < E ∧
    T + (E - B) ≤ timeOf S S.length ∧ E < 18446744073709551616 ∧
    InEdit r es mediaScale movieScale k T B E i ∧ i < S.length ∧ timeOf S i < T + (E - B) ∧ T < timeOf S (i + 1) ∧
    U = (leftOf S T (E - B) i).map (editUnit S has offs sync T B (E - B)) ++
      movieUnits S has offs sync mediaScale movieScale (M + e.duration) (es.drop (k + 1))

theorem segmentStart_succ {es : List Elst.Entry} {k : Nat} {e : Elst.Entry} (h : es[k]? = some e) :
    Elst.segmentStart es (k + 1) = Elst.segmentStart es k + e.duration := by
  obtain ⟨hk, he⟩ := List.getElem?_eq_some_iff.mp h
  unfold Elst.segmentStart startOf
  rw [List.take_succ_eq_append_getElem (by rw [List.length_map]; exact hk), List.sum_append, List.getElem_map, he]
  simp

theorem segmentStart_le (es : List Elst.Entry) (k : Nat) :
    Elst.segmentStart es k ≤ (es.map Elst.Entry.duration).sum := by
  unfold Elst.segmentStart startOf
  conv => rhs; rw [← List.take_append_drop k (es.map Elst.Entry.duration), List.sum_append]
  omega

/-- Empty edits take time and show nothing. -/
theorem movieUnits_skip {mediaScale movieScale : Nat} {es : List Elst.Entry} : ∀ (A : List Elst.Entry) {k : Nat}
    {B : List Elst.Entry}, es.drop k = A ++ B → (∀ a ∈ A, a.empty = true) →
    movieUnits S has offs sync mediaScale movieScale (Elst.segmentStart es k) (A ++ B) =
      movieUnits S has offs sync mediaScale movieScale (Elst.segmentStart es (k + A.length)) B ∧
    es.drop (k + A.length) = B
  | [], k, B, hd, _ => ⟨rfl, hd⟩
  | a :: A, k, B, hd, hA => by
    have hk : es[k]? = some a := by
      have := congrArg (fun l => l[0]?) hd
      simpa using this
    have hd' : es.drop (k + 1) = A ++ B := by
      have := congrArg (List.drop 1) hd
      rw [List.drop_drop] at this
      simpa using this
    obtain ⟨h1, h2⟩ := movieUnits_skip (mediaScale := mediaScale) (movieScale := movieScale) A hd'
      (fun x hx => hA x (by simp [hx]))
    rw [segmentStart_succ hk] at h1
    refine ⟨?_, ?_⟩
    · rw [List.cons_append]
      conv => lhs; unfold movieUnits
      rw [if_pos (hA a (by simp)), List.nil_append, h1]
      simp only [List.length_cons]
      rw [show k + 1 + A.length = k + (A.length + 1) by omega]
    · rw [List.length_cons, show k + (A.length + 1) = k + 1 + A.length by omega]; exact h2

theorem inside_at {mediaScale movieScale : Nat} : ∀ {es : List Elst.Entry} {M k : Nat} {e : Elst.Entry},
    Inside S mediaScale movieScale M es → es[k]? = some e → e.empty = false → 0 ≤ e.mediaTime ∧
      mediaScale * (M + Elst.segmentStart es k) / movieScale <
        mediaScale * (M + Elst.segmentStart es k + e.duration) / movieScale ∧
      e.mediaTime.toNat + (mediaScale * (M + Elst.segmentStart es k + e.duration) / movieScale -
        mediaScale * (M + Elst.segmentStart es k) / movieScale) ≤ timeOf S S.length
  | [], _, _, _, _, h, _ => by simp at h
  | a :: es, M, 0, e, hi, h, he => by
    obtain rfl : a = e := by simpa using h
    have := hi.1 he
    simpa [Elst.segmentStart, startOf] using this
  | a :: es, M, k + 1, e, hi, h, he => by
    have := inside_at hi.2 (k := k) (by simpa using h) he
    have e1 : Elst.segmentStart (a :: es) (k + 1) = a.duration + Elst.segmentStart es k := by
      simp [Elst.segmentStart, startOf]
    rw [e1, ← Nat.add_assoc]
    exact this

/-- What is assumed of the edit list. -/
structure Edits (S : List Supplied) (mediaScale movieScale : Nat) (es : List Elst.Entry) : Prop where
  scale : 0 < movieScale
  last : ∃ e, es.getLast? = some e ∧ e.empty = false
  inside : Inside S mediaScale movieScale 0 es
  count : es.length < 4294967295
  sum : (es.map Elst.Entry.duration).sum < 18446744073709551616
  total : mediaScale * (es.map Elst.Entry.duration).sum < 18446744073709551616

theorem getNextSegment_eq {es : List Elst.Entry} {r : Reader} {n : Nat} (h1 : r.elst = some es)
    (h2 : skipEmpty es r.segments (es.length + 1) r.nextSegment = (n, .ok ())) :
    getNextSegment t r = enterSegment t es { r with nextSegment := n } := by
  unfold getNextSegment
  split
  · rename_i h; rw [h] at h1; cases h1
  · rename_i es' h
    obtain rfl : es' = es := by rw [h] at h1; simpa using h1
    rw [h2]

theorem segment_ok (hG : Good t S D C has offs sync) (hs : Sound S D C) {es : List Elst.Entry} {mediaScale movieScale : Nat}
    (hE : Edits S mediaScale movieScale es) {r : Reader} {k : Nat} (hk : k < es.length) (h1 : r.elst = some es)
    (h2 : r.segments = es.length) (h3 : r.nextSegment = k + 1) (h4 : r.mediaScale = mediaScale)
    (h5 : r.movieScale = movieScale) :
    ∃ r', getNextSegment t r = (r', .ok ()) ∧ Left S has offs sync mediaScale movieScale es r'
      (movieUnits S has offs sync mediaScale movieScale (Elst.segmentStart es k) (es.drop k)) := by
  subst h4 h5
  have hlast : ∃ e, (es.drop k).getLast? = some e ∧ e.empty = false := by
    obtain ⟨e, e1, e2⟩ := hE.last
    refine ⟨e, ?_, e2⟩
    rw [List.getLast?_drop, if_neg (by omega), e1]
  obtain ⟨A, e, B, d1, d2, d3⟩ := split_last _ hlast
  have hAl : A.length < es.length + 1 := by
    have := congrArg List.length d1
    simp at this
    omega
  have hsk := skip_ok A (es.length + 1) d1 d2 d3 hE.count hAl
  obtain ⟨u1, u2⟩ := movieUnits_skip (S := S) (has := has) (offs := offs) (sync := sync) (mediaScale := r.mediaScale)
    (movieScale := r.movieScale) A d1 d2
  have hke : es[k + A.length]? = some e := by
    have := congrArg (fun l => l[0]?) u2
    simpa using this
  have hdr : es.drop (k + A.length + 1) = B := by
    have := congrArg (List.drop 1) u2
    rw [List.drop_drop] at this
    simpa using this
  have hin := inside_at hE.inside hke d3
  rw [Nat.zero_add] at hin
  obtain ⟨i1, i2, i3⟩ := hin
  have hle := segmentStart_le es (k + A.length + 1)
  rw [segmentStart_succ hke] at hle
  have hbig := Nat.mul_le_mul_left r.mediaScale hle
  have htot := hE.total
  obtain ⟨r', f, g1, g2, g3, g4, g5⟩ := enter_ok hG hs (r := { r with nextSegment := k + A.length + 1 }) hke d3 rfl hE.scale hE.sum
    (by dsimp only; omega) i1 i2 i3 h1 h2 rfl
  refine ⟨r', ?_, .inr ⟨k + A.length, e, f, _, _, _, _, hke, rfl, rfl, rfl, rfl, i2, i3, ?_, g5, g2, ?_, g4, ?_⟩⟩
  · rw [getNextSegment_eq h1 (by rw [h3, h2]; exact hsk)]
    exact g1
  · exact Nat.lt_of_le_of_lt (Nat.div_le_self _ _) (by omega)
  · omega
  · rw [d1, u1, hdr]
    conv => lhs; unfold movieUnits
    rw [d3]
    simp only [Bool.false_eq_true, if_false]
    rw [shown_eq (Nat.le_of_lt g2) g3 g4]

/-! ## One call -/

theorem dts_in {r : Reader} {T B x : Nat} (h1 : r.mediaTime = T) (h2 : r.beginTime = B) (hT : T < 18446744073709551616)
    (hx : x < 18446744073709551616) (hr : InS32 ((x : Int) - T + B)) : dtsOf r x = (x : Int) - T + B := by
  obtain ⟨ha, hb⟩ := hr
  unfold dtsOf u64i
  rw [h1, h2]
  unfold s32
  split <;> omega

theorem Good.offs_none (hG : Good t S D C false offs sync) {i : Nat} (hi : i < S.length) : offs.getD i 0 = 0 := by
  have h1 := hG.tables.offset i hi
  have h2 := hG.tables.has
  cases hc : t.ctts with
  | some c => rw [hc] at h2; cases h2
  | none => rw [hc] at h1; rw [← h1]; rfl

theorem call_eof {r : Reader} (h : r.segments < r.nextSegment) : next t r = ((t, r), .err .eof) := by
  unfold next
  rw [if_pos h]

theorem finish_next {r r' : Reader} {d : Nat} {dts : Int} (h1 : r.elst ≠ none)
    (h2 : r.endTime ≤ (d + u64i dts) % 18446744073709551616) (h3 : r.nextSegment + 1 ≤ r.segments)
    (h4 : r.segments < 4294967296)
    (h5 : getNextSegment t { r with nextSegment := r.nextSegment + 1 } = (r', .ok ())) :
    finish t r d dts = (r', .ok ((r.endTime + (18446744073709551616 - u64i dts)) % 18446744073709551616 % 4294967296)) := by
  unfold finish
  rw [if_pos ⟨h1, h2⟩, Nat.mod_eq_of_lt (show r.nextSegment + 1 < 4294967296 by omega), if_pos h3, h5]

theorem finish_all {r : Reader} {d : Nat} {dts : Int} (h1 : r.elst ≠ none)
    (h2 : r.endTime ≤ (d + u64i dts) % 18446744073709551616) (h3 : r.nextSegment = r.segments)
    (h4 : r.segments < 4294967295) :
    finish t r d dts = ({ r with nextSegment := r.segments + 1 },
      .ok ((r.endTime + (18446744073709551616 - u64i dts)) % 18446744073709551616 % 4294967296)) := by
  unfold finish
  rw [if_pos ⟨h1, h2⟩, h3, Nat.mod_eq_of_lt (show r.segments + 1 < 4294967296 by omega), if_neg (by omega)]

theorem finish_not {r : Reader} {d : Nat} {dts : Int} (h2 : (d + u64i dts) % 18446744073709551616 < r.endTime) :
    finish t r d dts = (r, .ok (d % 4294967296)) := by
  unfold finish
  rw [if_neg (by intro h; have := h.2; omega)]

/-- The end of a call in an edit, after sample `i`. -/
theorem finish_ok (hG : Good t S D C has offs sync) (hs : Sound S D C) {es : List Elst.Entry} {mediaScale movieScale : Nat}
    (hE : Edits S mediaScale movieScale es) {r : Reader} {k i T M B E : Nat} {e : Elst.Entry}
    (hke : es[k]? = some e) (hM : M = Elst.segmentStart es k) (hT : T = e.mediaTime.toNat)
    (hB : B = mediaScale * M / movieScale) (hEE : E = mediaScale * (M + e.duration) / movieScale) (hBE : B < E)
    (hTE : T + (E - B) ≤ timeOf S S.length) (hE64 : E < 18446744073709551616)
    (hr : InEdit r es mediaScale movieScale k T B E (i + 1)) (hi : i < S.length) (hiT : timeOf S i < T + (E - B))
    (hTi : T < timeOf S (i + 1)) (hd : InS32 ((timeOf S i : Int) - T + B)) :
    ∃ r', finish t r S[i].dur ((timeOf S i : Int) - T + B) =
      (r', .ok (min (timeOf S (i + 1)) (T + (E - B)) - timeOf S i)) ∧
      Left S has offs sync mediaScale movieScale es r'
        ((leftOf S T (E - B) (i + 1)).map (editUnit S has offs sync T B (E - B)) ++
          movieUnits S has offs sync mediaScale movieScale (M + e.duration) (es.drop (k + 1))) := by
  have hsucc := timeOf_succ hi
  have hle := timeOf_le (S := S) (i + 1)
  have htime := hs.time
  have hkl := (List.getElem?_eq_some_iff.mp hke).1
  have hcnt := hE.count
  have hd1 := hd.1
  have hd2 := hd.2
  generalize hx : timeOf S i = x at *
  generalize hy : timeOf S (i + 1) = y at *
  have hsum : (S[i].dur + u64i ((x : Int) - T + B)) % 18446744073709551616 = y + B - T := by
    unfold u64i; omega
  have hend : (r.endTime + (18446744073709551616 - u64i ((x : Int) - T + B))) % 18446744073709551616 % 4294967296 =
      T + (E - B) - x := by
    rw [hr.endTime]; unfold u64i; omega
  have hne : r.elst ≠ none := by rw [hr.elst]; simp
  by_cases hlast : T + (E - B) ≤ y
  · have hrest : leftOf S T (E - B) (i + 1) = [] := by
      have h := leftOf_last hi (by rw [hx]; exact hiT) (by rw [hy]; exact hlast)
      rw [leftOf_more hi (by rw [hx]; exact hiT), List.cons.injEq] at h
      exact h.2
    rw [hrest, List.map_nil, List.nil_append, show min y (T + (E - B)) = T + (E - B) by omega, ← hend]
    have h2 : r.endTime ≤ (S[i].dur + u64i ((x : Int) - T + B)) % 18446744073709551616 := by
      rw [hsum, hr.endTime]; omega
    by_cases hmore : k + 1 + 1 ≤ es.length
    · obtain ⟨r', g1, g2⟩ := segment_ok hG hs hE (r := { r with nextSegment := r.nextSegment + 1 })
        (k := k + 1) (by omega) hr.elst hr.segments (by show r.nextSegment + 1 = _; rw [hr.nextSegment])
        hr.mediaScale hr.movieScale
      refine ⟨r', finish_next hne h2 ?_ ?_ g1, ?_⟩
      · rw [hr.nextSegment, hr.segments]; exact hmore
      · rw [hr.segments]; omega
      · rw [hM, ← segmentStart_succ hke]
        exact g2
    · refine ⟨_, finish_all hne h2 ?_ ?_, .inl ⟨?_, ?_⟩⟩
      · rw [hr.nextSegment, hr.segments]; omega
      · rw [hr.segments]; omega
      · exact Nat.lt_succ_self _
      · rw [List.drop_of_length_le (by omega)]
        rfl
  · have hi1 : i + 1 < S.length := by
      rcases Nat.lt_or_ge (i + 1) S.length with h | h
      · exact h
      · have : i + 1 = S.length := by omega
        rw [this] at hy
        omega
    refine ⟨r, ?_, .inr ⟨k, e, i + 1, T, M, B, E, hke, hM, hT, hB, hEE, hBE, hTE, hE64, hr, hi1, by omega, ?_, rfl⟩⟩
    · rw [finish_not (by rw [hsum, hr.endTime]; omega), Nat.mod_eq_of_lt (by omega)]
      congr 2
      omega
    · have := timeOf_mono (S := S) (show i + 1 ≤ i + 1 + 1 by omega)
      omega

/-- A call in an edit. -/
theorem call_ok (hG : Good t S D C has offs sync) (hs : Sound S D C) {es : List Elst.Entry} {mediaScale movieScale : Nat}
    (hE : Edits S mediaScale movieScale es) {r : Reader} {u : AccessUnit} {U : List AccessUnit}
    (hL : Left S has offs sync mediaScale movieScale es r (u :: U)) (hd : InS32 u.dts) (hc : InS32 u.cts) :
    ∃ t' r', next t r = ((t', r'), .ok u) ∧ Good t' S D C has offs sync ∧
      Left S has offs sync mediaScale movieScale es r' U := by
  rcases hL with ⟨-, h⟩ | ⟨k, e, i, T, M, B, E, hke, hM, hT, hB, hEE, hBE, hTE, hE64, hr, hi, hiT, hTi, hU⟩
  · cases h
  obtain ⟨m', d, r1, r2, -, -⟩ := hG.rep.read hs.fits (n := i + 1) (by omega) (by omega)
  have hget : S[i]? = some S[i] := List.getElem?_eq_getElem hi
  simp only [Nat.add_sub_cancel, startOf_timeOf] at r1
  have hsucc := timeOf_succ hi
  have hle := timeOf_le (S := S) (i + 1)
  have htime := hs.time
  have hfs := hs.fits.samples
  have hkl := (List.getElem?_eq_some_iff.mp hke).1
  have hcnt := hE.count
  -- the unit
  rw [leftOf_more hi hiT, List.map_cons, List.cons_append, List.cons.injEq] at hU
  obtain ⟨hu, hU⟩ := hU
  have hgetD : S.getD i ⟨[], 0⟩ = S[i] := by rw [List.getD_eq_getElem?_getD, hget]; rfl
  have hud : u.dts = (timeOf S i : Int) - T + B := by rw [hu]; rfl
  have huc : u.cts = (timeOf S i : Int) - T + B + s32 (offs.getD i 0) := by rw [hu]; rfl
  have hg : getSample t (i + 1) = .ok (⟨⟨S[i].bytes, S[i].bytes.length, timeOf S i, u64i (s32 S[i].dur), d⟩,
      s32 (offs.getD i 0), (if has then 2 else 0) ||| (if sync.getD i true then 0 else 1)⟩,
      { t with media := m' }) := by
    unfold getSample
    rw [r1]
    simp only [Res.bind]
    rw [hG.tables.sync i hi]
    simp only [hG.tables.offset i hi, hG.tables.has]
  have hdts : dtsOf r (timeOf S i) = (timeOf S i : Int) - T + B :=
    dts_in hr.mediaTime hr.beginTime (by omega) (by omega) (by rw [← hud]; exact hd)
  have hdur : u64i (s32 S[i].dur) = S[i].dur := by
    rw [Media.out_duration _ (by omega), if_pos (by omega)]
  have hG' : Good { t with media := m' } S D C has offs sync :=
    ⟨r2, hG.tables.has, hG.tables.offset, hG.tables.sync⟩
  have hadv : InEdit (advance r d) es mediaScale movieScale k T B E (i + 1) :=
    ⟨hr.elst, hr.segments, hr.nextSegment, hr.mediaTime, hr.beginTime, hr.endTime, hr.mediaScale, hr.movieScale, by
      show (r.next + 1) % 4294967296 = _; rw [hr.next]; omega⟩
  rw [hud] at hd
  obtain ⟨r', hf1, hf2⟩ := finish_ok hG' hs hE hke hM hT hB hEE hBE hTE hE64 hadv hi hiT hTi hd
  rw [← hU] at hf2
  refine ⟨{ t with media := m' }, r', ?_, hG', hf2⟩
  rw [huc] at hc
  have hcts : ctsOf ((if has then 2 else 0) ||| (if sync.getD i true then 0 else 1)) ((timeOf S i : Int) - T + B)
      (s32 (offs.getD i 0)) = .ok ((timeOf S i : Int) - T + B + s32 (offs.getD i 0)) := by
    unfold ctsOf
    cases has with
    | true =>
      rw [if_pos, if_pos ⟨hc.1, hc.2⟩]
      cases sync.getD i true <;> decide
    | false =>
      rw [if_neg, hG.offs_none hi]
      · show _ = Res.ok (_ + 0)
        rw [Int.add_zero]
      · cases sync.getD i true <;> decide
  unfold next
  rw [if_neg (by rw [hr.segments, hr.nextSegment]; omega), if_neg (by rw [hr.elst]; simp), hr.next, hg]
  dsimp only
  rw [hdts, hcts]
  dsimp only
  rw [hdur, hf1, hu]
  unfold editUnit unitOf
  rw [hgetD]
  dsimp only
  congr 3
  cases has <;> cases sync.getD i true <;> rfl

theorem calls_left (hs : Sound S D C) {es : List Elst.Entry} {mediaScale movieScale : Nat}
    (hE : Edits S mediaScale movieScale es) : ∀ (k : Nat) {t : Track} {r : Reader} {U : List AccessUnit},
    Good t S D C has offs sync → Left S has offs sync mediaScale movieScale es r U →
    (∀ u ∈ U, InS32 u.dts ∧ InS32 u.cts) → calls k t r = padded k U
  | 0, _, _, _, _, _, _ => rfl
  | k + 1, t, r, U, hG, hL, hU => by
    unfold calls padded
    rw [List.range_succ_eq_map, List.map_cons, List.map_map]
    cases U with
    | nil =>
      have hlt : r.segments < r.nextSegment := by
        rcases hL with ⟨h, -⟩ | ⟨_, _, i, T, _, B, E, _, _, _, _, _, _, _, _, _, hi, hiT, _, hu⟩
        · exact h
        · rw [leftOf_more hi hiT] at hu
          simp at hu
      rw [call_eof hlt]
      dsimp only
      rw [calls_left hs hE k hG hL hU]
      rfl
    | cons u U =>
      obtain ⟨t', r', h1, h2, h3⟩ := call_ok hG hs hE hL (hU u (by simp)).1 (hU u (by simp)).2
      rw [h1]
      dsimp only
      rw [calls_left hs hE k h2 h3 (fun v hv => hU v (by simp [hv]))]
      rfl

theorem setup_left (hG : Good t S D C has offs sync) (hs : Sound S D C) {es : List Elst.Entry} {mediaScale movieScale : Nat}
    (hE : Edits S mediaScale movieScale es) :
    ∃ r, setup t es movieScale mediaScale = .ok r ∧ Left S has offs sync mediaScale movieScale es r
      (movieUnits S has offs sync mediaScale movieScale 0 es) := by
  have hne : 0 < es.length := by
    obtain ⟨e, he, -⟩ := hE.last
    cases es with
    | nil => simp at he
    | cons a l => simp
  obtain ⟨r', h1, h2⟩ := segment_ok hG hs hE (k := 0)
    (r := { blank movieScale mediaScale with elst := some es, segments := es.length, nextSegment := 1, desc := 1 })
    hne rfl rfl rfl rfl rfl
  refine ⟨r', ?_, ?_⟩
  · unfold setup
    rw [if_neg (by omega), h1]
  · simpa [Elst.segmentStart, startOf] using h2

end

/-! ## The property -/

/-- **C53.** A track is built by any correct history (see C42), no sample having duration 0. It has an edit
list with any number of edits, empty or not; the last is not empty, and those that are not empty lie in the
media and show something. Then a reader, called any number of times, returns the samples each edit shows,
edit by edit, in order, with times moved to where the edit is in the presentation, and the duration of the
last sample of an edit cut at its end; after all of them, end of file for ever. Times are `s32` in this
interface, so all of them must be representable.

Partial: for a list that ends with an empty edit the property fails, see
`c53_empty_edit_at_the_end_fails`. -/
theorem c53_reads_the_edits_partial (drefs : Nat) (h : List Media.Step) (hval : Media.AllValid drefs 0 false h)
    (hS : (Media.supplied h).length + 1 < 1073739776) (hC : h.length + 1 < 536869888)
    (hT : ((Media.supplied h).map Supplied.dur).sum < 2147483648) (hD : (Media.dataOf h).length < 4294967296)
    (hpos : ∀ s ∈ Media.supplied h, 0 < s.dur)
    (co : List Ctts.Add) (hco : ∀ a ∈ co, a.Valid) (hfirst : ∀ a, co.head? = some a → a.offs ≠ none)
    (hcl : co = [] ∨ (co.flatMap Ctts.Add.given).length = (Media.supplied h).length)
    (sy : List Stss.Add) (hsy : ∀ a ∈ sy, a.Valid)
    (hsl : sy = [] ∨ (sy.flatMap Stss.Add.declared).length = (Media.supplied h).length)
    (movieScale mediaScale : Nat) (hscale : 0 < movieScale) (es : List Elst.Entry) (hcount : es.length < 4294967295)
    (hlast : ∃ e, es.getLast? = some e ∧ e.empty = false)
    (hin : Inside (Media.supplied h) mediaScale movieScale 0 es)
    (hsum : (es.map Elst.Entry.duration).sum < 18446744073709551616)
    (htotal : mediaScale * (es.map Elst.Entry.duration).sum < 18446744073709551616)
    (hout : ∀ u ∈ movieUnits (Media.supplied h) (!co.isEmpty) (co.flatMap Ctts.Add.given)
      (sy.flatMap Stss.Add.declared) mediaScale movieScale 0 es, InS32 u.dts ∧ InS32 u.cts) (k : Nat) :
    ∃ m c s r, runAll Media.apply (Media.create drefs) h = .ok m ∧ runAll Ctts.addBatch ⟨0, none⟩ co = .ok c ∧
      runAll Stss.addBatch ⟨0, none⟩ sy = .ok s ∧ setup ⟨m, c.ctts, s.stss⟩ es movieScale mediaScale = .ok r ∧
      calls k ⟨m, c.ctts, s.stss⟩ r = padded k (movieUnits (Media.supplied h) (!co.isEmpty)
        (co.flatMap Ctts.Add.given) (sy.flatMap Stss.Add.declared) mediaScale movieScale 0 es) := by
  obtain ⟨m, C, h1, h2, h3⟩ := Media.run_rep drefs h (Media.create drefs) [] [] [] false (Media.rep_create drefs) rfl
    (by simp) hval (by simpa using hS) (by simpa using hC)
    (by simp only [List.nil_append]; omega) (by simpa using hD)
  rw [List.nil_append, List.nil_append] at h2
  obtain ⟨c, c1, c2, c3⟩ := ctts_table hco hfirst hcl (by omega)
  obtain ⟨s, s1, s2⟩ := stss_table hsy hsl (by omega)
  have hG : Good ⟨m, c.ctts, s.stss⟩ (Media.supplied h) (Media.dataOf h) C (!co.isEmpty) (co.flatMap Ctts.Add.given)
      (sy.flatMap Stss.Add.declared) := ⟨h2, c2, c3, s2⟩
  have hs : Sound (Media.supplied h) (Media.dataOf h) C :=
    ⟨⟨hS, h3, by omega, hD⟩, by rw [timeOf_length]; exact hT, hpos⟩
  have hE : Edits (Media.supplied h) mediaScale movieScale es := ⟨hscale, hlast, hin, hcount, hsum, htotal⟩
  obtain ⟨r, r1, r2⟩ := setup_left hG hs hE
  exact ⟨m, c, s, r, h1, c1, s1, r1, calls_left hs hE k hG r2 hout⟩

/-- The last edit must not be empty: in a track with one sample, shown by the first edit and followed by an
empty one, the sample is never returned; the first call fails. -/
theorem c53_empty_edit_at_the_end_fails (drefs : Nat) (h : List Media.Step) (hval : Media.AllValid drefs 0 false h)
    (hC : h.length + 1 < 536869888) (s : Supplied) (hS : Media.supplied h = [s]) (h0 : 0 < s.dur)
    (hT : s.dur < 2147483648) (hD : (Media.dataOf h).length < 4294967296) (gap rate : Nat)
    (hgap : s.dur + gap < 18446744073709551616) :
    ∃ m r, runAll Media.apply (Media.create drefs) h = .ok m ∧
      setup ⟨m, none, none⟩ [⟨s.dur, 0, rate, false⟩, ⟨gap, -1, rate, true⟩] 1 1 = .ok r ∧
      (next ⟨m, none, none⟩ r).2 = .err .invalidMedia := by
  obtain ⟨m, C, h1, h2, h3⟩ := Media.run_rep drefs h (Media.create drefs) [] [] [] false (Media.rep_create drefs) rfl
    (by simp) hval (by rw [hS]; simp) (by simpa using hC) (by rw [hS]; simp; omega) (by simpa using hD)
  rw [List.nil_append, List.nil_append, hS] at h2
  have hG : Good ⟨m, none, none⟩ [s] (Media.dataOf h) C false [] [] := ⟨h2, rfl, fun _ _ => rfl, fun _ _ => rfl⟩
  have hs : Sound [s] (Media.dataOf h) C :=
    ⟨⟨by simp, h3, by simp; omega, hD⟩, by simp [timeOf]; exact hT, by simpa using h0⟩
  obtain ⟨r, f, g1, g2, -, -, g3⟩ := enter_ok hG hs (M := 0) (k := 0) (e := ⟨s.dur, 0, rate, false⟩)
    (es := [⟨s.dur, 0, rate, false⟩, ⟨gap, -1, rate, true⟩])
    (r := { blank 1 1 with elst := some [⟨s.dur, 0, rate, false⟩, ⟨gap, -1, rate, true⟩], segments := 2, nextSegment := 1, desc := 1 })
    rfl rfl rfl Nat.one_pos (by simp; omega) (by simp [blank]; omega) (by simp) (by simp [blank]; exact h0)
    (by simp [blank, timeOf]) rfl rfl rfl
  obtain rfl : f = 0 := by simp at g2; exact g2
  refine ⟨m, r, h1, ?_, ?_⟩
  · have hn : getNextSegment ⟨m, none, none⟩ { blank 1 1 with
        elst := some [⟨s.dur, 0, rate, false⟩, ⟨gap, -1, rate, true⟩]
        segments := [(⟨s.dur, 0, rate, false⟩ : Elst.Entry), ⟨gap, -1, rate, true⟩].length, nextSegment := 1, desc := 1 } =
        (r, .ok ()) := (getNextSegment_eq (n := 1) rfl rfl).trans g1
    unfold setup
    rw [if_neg (by simp), hn]
  · have hgm := g3
    simp only [blank, Nat.mul_zero, Nat.one_mul, Nat.zero_add, Nat.div_one] at hgm
    obtain ⟨m', d, r1, r2, -, -⟩ := hG.rep.read hs.fits (n := 1) (by omega) (by simp)
    simp only [startOf_timeOf, Nat.sub_self, List.getElem_cons_zero] at r1
    have hg : getSample ⟨m, none, none⟩ 1 = .ok (⟨⟨s.bytes, s.bytes.length, 0, u64i (s32 s.dur), d⟩, 0, 0⟩, ⟨m', none, none⟩) := by
      unfold getSample
      rw [r1, show timeOf [s] 0 = 0 from rfl]
      simp [Res.bind, Stss.isSync, Ctts.offsetOf, s32]
    have hdur : u64i (s32 s.dur) = s.dur := by
      rw [Media.out_duration _ (by omega), if_pos (by omega)]
    have hdts : dtsOf r 0 = 0 := by
      have := dts_in (x := 0) hgm.mediaTime hgm.beginTime (by decide) (by decide) (by constructor <;> decide)
      simpa using this
    unfold next
    rw [if_neg (by rw [hgm.segments, hgm.nextSegment]; simp), if_neg (by rw [hgm.elst]; simp), hgm.next, hg]
    dsimp only
    rw [hdts]
    have hc : ctsOf 0 0 0 = .ok 0 := by decide
    rw [hc]
    dsimp only
    have hfin : ∃ r', finish ⟨m', none, none⟩ (advance r d) (u64i (s32 s.dur)) 0 = (r', .err .invalidMedia) := by
      rw [hdur]
      have hn : (advance r d).nextSegment = 1 := hgm.nextSegment
      have hsg : (advance r d).segments = 2 := hgm.segments
      have he : (advance r d).endTime = s.dur := hgm.endTime
      have hel : (advance r d).elst = some [⟨s.dur, 0, rate, false⟩, ⟨gap, -1, rate, true⟩] := hgm.elst
      have hu : u64i 0 = 0 := rfl
      unfold finish
      rw [if_pos ⟨by rw [hel]; simp, by rw [he, hu]; omega⟩, hn, hsg, if_pos (by decide)]
      unfold getNextSegment
      rw [hel]
      exact ⟨_, rfl⟩
    obtain ⟨r', hfin⟩ := hfin
    rw [hfin]

/-! ## Cases that meet the hypotheses -/

/-- Five samples of durations 10, 10, 7, 10, 9, media and movie scale 90 and 30. The edits: a gap of 2 (6 units
of the media); from media time 15 for 4 (12 units); from 0 for 3 (9 units). The first edit shows the second
sample from its middle and the third in full; the second edit part of the first sample. -/
example (jb : Nat → UInt8) (j : Nat → Nat) : ∃ m c s r, runAll Media.apply (Media.create 1) (Media.demo jb j) = .ok m ∧
    runAll Ctts.addBatch ⟨0, none⟩ [⟨2, some (.each [5, 0])⟩, ⟨3, some (.each [3, 4294967295, 2])⟩] = .ok c ∧
    runAll Stss.addBatch ⟨0, none⟩ [⟨5, [1, 4], j⟩] = .ok s ∧
    setup ⟨m, c.ctts, s.stss⟩ [⟨2, -1, 1, true⟩, ⟨4, 15, 1, false⟩, ⟨3, 0, 1, false⟩] 30 90 = .ok r ∧
    calls 5 ⟨m, c.ctts, s.stss⟩ r =
      [.ok ⟨[3, 4], 2, 3, 1, 1, 10⟩, .ok ⟨[5], 1, 3, 14, 11, 7⟩, .ok ⟨[1, 2], 2, 2, 23, 18, 9⟩,
        .err .eof, .err .eof] := by
  have e : Media.supplied (Media.demo jb j) =
      [⟨[1, 2], 10⟩, ⟨[3, 4], 10⟩, ⟨[5], 7⟩, ⟨[], 10⟩, ⟨[6, 7, 8], 9⟩] := rfl
  have e2 : [(⟨5, [1, 4], j⟩ : Stss.Add)].flatMap Stss.Add.declared = [true, false, false, true, false] := by
    simp [Stss.Add.declared, List.range, List.range.loop]
  obtain ⟨m, c, s, r, h1, h2, h3, h4, h5⟩ := c53_reads_the_edits_partial 1 (Media.demo jb j)
    (by simp [Media.demo, Media.AllValid, Media.Step.Valid, Media.Step.samples, Media.Step.brings, Batch.values, List.replicate])
    (by rw [e]; decide) (by simp [Media.demo]) (by rw [e]; decide) (by simp [Media.demo, Media.dataOf, Media.Step.data])
    (by rw [e]; decide)
    [⟨2, some (.each [5, 0])⟩, ⟨3, some (.each [3, 4294967295, 2])⟩]
    (by simp [Ctts.Add.Valid, Batch.count, Batch.array]) (by simp) (by rw [e]; decide)
    [⟨5, [1, 4], j⟩] (by simp [Stss.Add.Valid]) (by rw [e]; simp [Stss.Add.declared]) 30 90 (by decide)
    [⟨2, -1, 1, true⟩, ⟨4, 15, 1, false⟩, ⟨3, 0, 1, false⟩] (by decide) ⟨_, rfl, rfl⟩
    (by rw [e]; simp [Inside, timeOf]) (by decide) (by decide) (by rw [e, e2]; unfold InS32; decide) 5
  refine ⟨m, c, s, r, h1, h2, h3, h4, ?_⟩
  rw [h5, e, e2]
  decide

/-- A track of one sample. -/
def single (jb : Nat → UInt8) (j : Nat → Nat) : List Media.Step :=
  [.add [⟨[1, 2], 5⟩] (.each [5]) (.each [2]) (some 1) jb j]

example (jb : Nat → UInt8) (j : Nat → Nat) : Media.AllValid 1 0 false (single jb j) ∧
    Media.supplied (single jb j) = [⟨[1, 2], 5⟩] := by
  refine ⟨?_, rfl⟩
  simp [single, Media.AllValid, Media.Step.Valid, Batch.values]

end Verif.Reader
