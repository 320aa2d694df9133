import Verif.Props.C81
import Verif.Props.C53
import Verif.Lemmas.MergeRep

/-!
# C82: the edits and the duration of a track with fragments

Full property: merging the fragments of a track into it adds their samples to what the track shows, each fragment
where the one before it ends, and an empty fragment shows nothing for its duration. It does not hold for fragments
that last less than a unit of the movie (`c82_short_lost`), for an edit list that skips the beginning of the media
(`c82_skip_undone`), for time before an empty fragment (`c82_gap`, the second example), and for empty fragments,
which are not recognised when the track is read (`c82_gap_unread`).
-/

namespace Verif.Dur

/-! ## Specification -/

/-- Where the media ends after a fragment, if it ended at `T` before. -/
def Frag.endsAt (f : Frag) (T : Nat) : Nat := f.time.getD T + f.durations.sum

/-- The decode time of a fragment is not before the end `T` of the media; if it is later, one of the `n` samples before
it is there to be extended. -/
def Frag.Follows (f : Frag) (T n : Nat) : Prop :=
  T < 2 ^ 31 ∧ f.endsAt T < 2 ^ 32 ∧ n + f.durations.length + 1 < 2 ^ 32 ∧
    ∀ time, f.time = some time → T ≤ time ∧ (T < time → n ≠ 0)

/-- None of the fragments is empty, and they follow each other. -/
def InOrder : Nat → Nat → List Frag → Prop
  | _, _, [] => True
  | T, n, f :: fs => f.empty = none ∧ f.Follows T n ∧ InOrder (f.endsAt T) (n + f.durations.length) fs

/-- Where the media ends after all fragments. -/
def mediaEnd : Nat → List Frag → Nat
  | T, [] => T
  | T, f :: fs => mediaEnd (f.endsAt T) fs

/-- A segment for each fragment: the part of the media it brought, in units of the movie. -/
def segments (movie scale : Nat) : Nat → List Frag → List Elst.Entry
  | _, [] => []
  | T, f :: fs => ⟨scaled (f.endsAt T - T) scale movie, T, 1, false⟩ :: segments movie scale (f.endsAt T) fs

/-- A track as it is before the fragments: its time scale is not 0, and no entry of the time-to-sample table is for no
samples. -/
structure Ready (movie : Nat) (t : Trk) : Prop where
  small : movie < 2 ^ 32
  scale : 0 < t.mediaScale
  counts : ∀ e ∈ t.stts, 0 < e.1

/-! ## Proofs -/

theorem expand_foldl : ∀ (ds : List Nat) (es : List (Nat × Nat)), (∀ e ∈ es, 0 < e.1) →
    (expand es).length + ds.length + 1 < 4294967296 →
    expand (ds.foldl Stts.addSample es) = expand es ++ ds ∧ ∀ e ∈ ds.foldl Stts.addSample es, 0 < e.1 := by
  intro ds
  induction ds with
  | nil => intro es h _; exact ⟨by simp, h⟩
  | cons d ds ih =>
    intro es h hl
    simp only [List.length_cons] at hl
    obtain ⟨a, b⟩ := ih (Stts.addSample es d) (Merge.pos_addSample h (by omega) d)
      (by rw [Stts.expand_addSample (by omega)]; simp; omega)
    exact ⟨by rw [List.foldl_cons, a, Stts.expand_addSample (by omega)]; simp, b⟩

theorem total_eq {es : List (Nat × Nat)} (h : (expand es).sum < 2 ^ 32) : Stts.totalDuration es = (expand es).sum := by
  rw [Stts.totalDuration_eq, Nat.mod_eq_of_lt (by omega)]

theorem startAt_eq {t : Trk} {T n : Nat} (hc : ∀ e ∈ t.stts, 0 < e.1) (hT : (expand t.stts).sum = T)
    (hn : (expand t.stts).length = n) {f : Frag} (hf : f.Follows T n) :
    ∃ es, startAt (calcMedia t) f.time = .ok { calcMedia t with stts := es } ∧ (∀ e ∈ es, 0 < e.1) ∧
      (expand es).sum = f.time.getD T ∧ (expand es).length = n := by
  obtain ⟨h1, h2, h3, h4⟩ := hf
  have hmd : (calcMedia t).mediaDuration = T := by
    show Stts.totalDuration t.stts = T
    rw [total_eq (by omega), hT]
  unfold Frag.endsAt at h2
  cases ht : f.time with
  | none => exact ⟨t.stts, rfl, hc, by simpa using hT, hn⟩
  | some time =>
    obtain ⟨g1, g2⟩ := h4 time ht
    rw [ht] at h2
    simp only [Option.getD_some] at h2
    unfold startAt
    rw [hmd]
    dsimp only
    rw [if_neg (by omega)]
    by_cases e : T < time
    · rw [if_pos e]
      have hne : expand t.stts ≠ [] := by
        intro e'
        rw [e'] at hn
        exact g2 e (by simpa using hn.symm)
      obtain ⟨d, hg⟩ : ∃ d, (expand t.stts).getLast? = some d := by
        cases hg : (expand t.stts).getLast? with
        | none => rw [List.getLast?_eq_none_iff] at hg; exact absurd hg hne
        | some d => exact ⟨d, rfl⟩
      have happ := getLast?_eq_some_iff_append hg
      have hds : (expand t.stts).dropLast.sum + d = T := by
        rw [← hT]
        conv => rhs; rw [happ]
        simp
      obtain ⟨es', k1, k2⟩ := Stts.expand_extendLast (es := t.stts) (delta := (time - T) % 4294967296) (d := d) hc
        (by omega) hg
      have k1' : Stts.extendLast (calcMedia t).stts ((time - T) % 4294967296) = .ok es' := k1
      rw [k1']
      refine ⟨es', by simp only [Res.bind, hmd], Merge.pos_extendLast hc (by omega) k1, ?_, ?_⟩
      · rw [k2, Nat.mod_eq_of_lt (a := time - T) (by omega), Nat.mod_eq_of_lt (by omega)]
        simp; omega
      · rw [k2, ← hn]
        have := List.length_pos_iff.mpr hne
        simp; omega
    · rw [if_neg (by omega)]
      exact ⟨t.stts, rfl, hc, by simp; omega, hn⟩

theorem insertSegment_end (es : List Elst.Entry) (m : Int) (d r : Nat) :
    Elst.insertSegment es (-1) m d r = .ok (es ++ [⟨d, m, r, false⟩]) := by
  unfold Elst.insertSegment
  by_cases e : es = []
  · rw [if_pos e, e]; rfl
  · rw [if_neg e, if_pos rfl]

/-- Inserting at the end of a track. -/
theorem insert_end {movie : Nat} {t : Trk} (h : Sane movie t) (m : Int) (d : Nat) (hd : d * movie < 2 ^ 64) :
    insertMedia movie t (-1) m d 1 = .ok { calcMedia t with
      duration := lastsNow movie t, edts := some (some (edits t ++ [⟨scaled d t.mediaScale movie, m, 1, false⟩])) } := by
  have := insert_eq h (start := -1) (mediaStart := m) (d := d) (rate := 1) (by omega) (by rintro ⟨h1, -⟩; omega) hd
  rw [insertSegment_end] at this
  exact this

/-- A fragment that is not empty, in a track without edits. -/
theorem merge_plain {movie : Nat} {t : Trk} (hr : Ready movie t) (he : t.edts = none) {f : Frag} (hf0 : f.empty = none)
    (hf : f.Follows (expand t.stts).sum (expand t.stts).length) :
    ∃ t', mergeFrag movie t f = .ok t' ∧ Ready movie t' ∧ t'.edts = none ∧ t'.mediaScale = t.mediaScale ∧
      (expand t'.stts).sum = f.endsAt (expand t.stts).sum ∧
      (expand t'.stts).length = (expand t.stts).length + f.durations.length := by
  obtain ⟨es, k1, k2, k3, k4⟩ := startAt_eq hr.counts rfl rfl hf
  obtain ⟨f1, f2, f3, f4⟩ := hf
  obtain ⟨g1, g2⟩ := expand_foldl f.durations es k2 (by omega)
  refine ⟨calcMedia { calcMedia t with stts := f.durations.foldl Stts.addSample es }, ?_, ⟨hr.small, hr.scale, g2⟩, he, rfl,
    ?_, ?_⟩
  · unfold mergeFrag
    rw [k1, hf0]
    simp only [Res.bind]
    rw [if_pos (by exact he)]
  · show (expand (f.durations.foldl Stts.addSample es)).sum = _
    rw [g1, List.sum_append, k3]; rfl
  · show (expand (f.durations.foldl Stts.addSample es)).length = _
    rw [g1, List.length_append, k4]

/-- A fragment that is not empty, in a track with edits. -/
theorem merge_edits {movie : Nat} {t : Trk} (hr : Ready movie t) {l : List Elst.Entry} (he : t.edts = some (some l)) {f : Frag}
    (hf0 : f.empty = none) (hf : f.Follows (expand t.stts).sum (expand t.stts).length)
    (hsum : (l.map Elst.Entry.duration).sum < 2 ^ 32)
    (hend : scaled (f.endsAt (expand t.stts).sum) t.mediaScale movie < 2 ^ 32) :
    ∃ t', mergeFrag movie t f = .ok t' ∧ Ready movie t' ∧
      t'.edts = some (some (l ++ [⟨scaled (f.endsAt (expand t.stts).sum - (expand t.stts).sum) t.mediaScale movie,
        (expand t.stts).sum, 1, false⟩])) ∧ t'.mediaScale = t.mediaScale ∧
      (expand t'.stts).sum = f.endsAt (expand t.stts).sum ∧
      (expand t'.stts).length = (expand t.stts).length + f.durations.length := by
  obtain ⟨es, k1, k2, k3, k4⟩ := startAt_eq hr.counts rfl rfl hf
  obtain ⟨f1, f2, f3, f4⟩ := hf
  obtain ⟨g1, g2⟩ := expand_foldl f.durations es k2 (by omega)
  obtain ⟨T, hT⟩ : ∃ T, T = (expand t.stts).sum := ⟨_, rfl⟩
  rw [← hT] at f1 f2 f4 k3 hend ⊢
  have hle : T ≤ f.endsAt T := by
    unfold Frag.endsAt
    cases ht : f.time with
    | none => simp
    | some x => have := (f4 x ht).1; simp; omega
  have hS : (expand (f.durations.foldl Stts.addSample es)).sum = f.endsAt T := by rw [g1, List.sum_append, k3]; rfl
  obtain ⟨t2, e2⟩ : ∃ t2, t2 = calcMedia { calcMedia t with stts := f.durations.foldl Stts.addSample es } := ⟨_, rfl⟩
  have q1 : t2.edts = some (some l) := by rw [e2]; exact he
  have q2 : t2.mediaScale = t.mediaScale := by rw [e2]; rfl
  have q3 : t2.stts = f.durations.foldl Stts.addSample es := by rw [e2]; rfl
  have q4 : t2.mediaDuration = f.endsAt T := by
    rw [e2]
    show Stts.totalDuration (f.durations.foldl Stts.addSample es) = _
    rw [total_eq (by omega), hS]
  have q5 : edits t2 = l := by unfold edits; rw [q1]
  have hsane : Sane movie t2 := ⟨hr.small, by rw [q2]; exact hr.scale, by rw [q1]; simp, by rw [q3]; omega, by rw [q5]; exact hsum,
    by rw [q3, hS, q2]; exact hend⟩
  have hd : (f.endsAt T - T) * movie < 2 ^ 64 := by
    have := Nat.mul_lt_mul'' (show f.endsAt T - T < 2 ^ 32 by omega) hr.small
    omega
  have hi := insert_end hsane (T : Int) (f.endsAt T - T) hd
  rw [q5, q2] at hi
  refine ⟨{ calcMedia t2 with duration := lastsNow movie t2, edts := some (some (l ++
    [⟨scaled (f.endsAt T - T) t.mediaScale movie, T, 1, false⟩])) }, ?_, ⟨hr.small, ?_, ?_⟩, rfl, ?_, ?_, ?_⟩
  · unfold mergeFrag
    rw [k1, hf0]
    simp only [Res.bind]
    rw [← e2, if_neg (by rw [q1]; simp), q4, total_eq (by omega), ← hT]
    have e1 : (f.endsAt T + (18446744073709551616 - T)) % 18446744073709551616 = f.endsAt T - T := by omega
    have e3 : s32 (T % 4294967296) = T := by unfold s32; split <;> omega
    rw [e1, e3]
    exact hi
  · show 0 < t2.mediaScale
    rw [q2]; exact hr.scale
  · show ∀ e ∈ t2.stts, 0 < e.1
    rw [q3]; exact g2
  · exact q2
  · show (expand t2.stts).sum = _
    rw [q3, hS]
  · show (expand t2.stts).length = _
    rw [q3, g1, List.length_append, k4]

theorem endsAt_le {f : Frag} {T n : Nat} (h : f.Follows T n) : T ≤ f.endsAt T := by
  unfold Frag.endsAt
  cases ht : f.time with
  | none => simp
  | some x => have := (h.2.2.2 x ht).1; simp; omega

theorem mediaEnd_le : ∀ (fs : List Frag) (T n : Nat), InOrder T n fs → T ≤ mediaEnd T fs
  | [], _, _, _ => Nat.le_refl _
  | _ :: fs, _, _, h => Nat.le_trans (endsAt_le h.2.1) (mediaEnd_le fs _ _ h.2.2)

/-! ## Theorems -/

/-- Fragments that follow each other, merged into a track without edits: there are still none, and the track lasts as
long as the media. -/
theorem c82_plain (movie : Nat) : ∀ (fs : List Frag) (t : Trk), Ready movie t → t.edts = none →
    InOrder (expand t.stts).sum (expand t.stts).length fs → (expand t.stts).sum < 2 ^ 32 →
    scaled (mediaEnd (expand t.stts).sum fs) t.mediaScale movie < 2 ^ 32 →
    ∃ t' t'', runAll (mergeFrag movie) t fs = .ok t' ∧ t'.edts = none ∧
      (expand t'.stts).sum = mediaEnd (expand t.stts).sum fs ∧
      trackDuration movie t' = .ok (scaled (mediaEnd (expand t.stts).sum fs) t.mediaScale movie, t'') := by
  intro fs
  induction fs with
  | nil =>
    intro t hr he _ hs hend
    have := (Sane.mk hr.small hr.scale (by rw [he]; simp) hs (by unfold edits; rw [he]; simp) hend).track_eq
    have hL : lastsNow movie t = scaled (expand t.stts).sum t.mediaScale movie := by
      unfold lastsNow lasts edits
      rw [he]; rfl
    rw [hL] at this
    exact ⟨t, _, rfl, he, rfl, this⟩
  | cons f fs ih =>
    intro t hr he hO hs hend
    obtain ⟨o1, o2, o3⟩ := hO
    obtain ⟨t1, k1, k2, k3, k4, k5, k6⟩ := merge_plain hr he o1 o2
    rw [← k5, ← k6] at o3
    obtain ⟨t', t'', m1, m2, m3, m4⟩ := ih t1 k2 k3 o3 (by rw [k5]; exact o2.2.1) (by rw [k5, k4]; exact hend)
    rw [k5] at m3 m4
    rw [k4] at m4
    exact ⟨t', t'', by simp only [runAll, k1, Res.bind]; exact m1, m2, m3, m4⟩

/-- Fragments that follow each other, merged into a track with edits: each adds a segment that shows the part of the
media that it brought, and the track lasts as long as its segments. -/
theorem c82_edits_partial (movie : Nat) : ∀ (fs : List Frag) (t : Trk) (l : List Elst.Entry), Ready movie t →
    t.edts = some (some l) → InOrder (expand t.stts).sum (expand t.stts).length fs → (expand t.stts).sum < 2 ^ 32 →
    scaled (mediaEnd (expand t.stts).sum fs) t.mediaScale movie < 2 ^ 32 →
    ((l ++ segments movie t.mediaScale (expand t.stts).sum fs).map Elst.Entry.duration).sum < 2 ^ 32 →
    ∃ t' t'', runAll (mergeFrag movie) t fs = .ok t' ∧
      edits t' = l ++ segments movie t.mediaScale (expand t.stts).sum fs ∧
      (expand t'.stts).sum = mediaEnd (expand t.stts).sum fs ∧
      trackDuration movie t' = .ok (lasts movie t.mediaScale (mediaEnd (expand t.stts).sum fs)
        (l ++ segments movie t.mediaScale (expand t.stts).sum fs), t'') := by
  intro fs
  induction fs with
  | nil =>
    intro t l hr he _ hs hend hsum
    have hed : edits t = l := by unfold edits; rw [he]
    simp only [segments, List.append_nil] at hsum
    have := (Sane.mk hr.small hr.scale (by rw [he]; simp) hs (by rw [hed]; exact hsum) hend).track_eq
    have hL : lastsNow movie t = lasts movie t.mediaScale (expand t.stts).sum (l ++ []) := by
      unfold lastsNow
      rw [hed, List.append_nil]
    rw [hL] at this
    exact ⟨t, _, rfl, by simp [segments, hed], rfl, this⟩
  | cons f fs ih =>
    intro t l hr he hO hs hend hsum
    obtain ⟨o1, o2, o3⟩ := hO
    have hmono := mediaEnd_le fs _ _ o3
    simp only [segments, List.map_append, List.map_cons, List.sum_append, List.sum_cons] at hsum
    obtain ⟨t1, k1, k2, k3, k4, k5, k6⟩ := merge_edits hr he o1 o2 (by omega)
      (Nat.lt_of_le_of_lt (scaled_mono hmono _ _) hend)
    rw [← k5, ← k6] at o3
    obtain ⟨t', t'', m1, m2, m3, m4⟩ := ih t1 _ k2 k3 o3 (by rw [k5]; exact o2.2.1) (by rw [k5, k4]; exact hend)
      (by rw [k5, k4]; simp only [List.map_append, List.map_cons, List.map_nil, List.sum_append, List.sum_cons, List.sum_nil]; omega)
    rw [k5, k4] at m2 m4
    rw [k5] at m3
    rw [List.append_assoc] at m2 m4
    exact ⟨t', t'', by simp only [runAll, k1, Res.bind]; exact m1, m2, m3, m4⟩

/-- Two fragments of a track with an offset: the second starts later than the first ends. -/
example : Ready 600 ⟨[], 0, 1000, some (some [⟨300, -1, 1, true⟩]), 0⟩ ∧
    InOrder 0 0 [⟨none, none, [1000, 1000]⟩, ⟨some 3000, none, [500]⟩] ∧
    segments 600 1000 0 [⟨none, none, [1000, 1000]⟩, ⟨some 3000, none, [500]⟩] = [⟨1200, 0, 1, false⟩, ⟨900, 2000, 1, false⟩] := by
  refine ⟨⟨by decide, by decide, by simp⟩, ⟨rfl, ⟨by decide, by decide, by decide, by simp⟩, rfl, ⟨by decide, by decide, by decide, ?_⟩, trivial⟩,
    by decide⟩
  intro x hx
  cases hx
  exact ⟨by decide, by decide⟩

/-- Fragments that each bring less than a unit of the movie: a track with edits does not get longer, however many there
are. -/
theorem c82_short_lost (movie : Nat) (fs : List Frag) (t : Trk) (l : List Elst.Entry) (hr : Ready movie t)
    (he : t.edts = some (some l)) (hO : InOrder (expand t.stts).sum (expand t.stts).length fs)
    (hs : (expand t.stts).sum < 2 ^ 32) (hend : scaled (mediaEnd (expand t.stts).sum fs) t.mediaScale movie < 2 ^ 32)
    (hl : (l.map Elst.Entry.duration).sum < 2 ^ 32) (hl0 : (l.map Elst.Entry.duration).sum ≠ 0)
    (hshort : ∀ f ∈ fs, f.time = none ∧ f.durations.sum * movie < t.mediaScale) :
    ∃ t' t'', runAll (mergeFrag movie) t fs = .ok t' ∧
      (expand t'.stts).sum = (expand t.stts).sum + (fs.map fun f => f.durations.sum).sum ∧
      trackDuration movie t' = .ok ((l.map Elst.Entry.duration).sum, t'') := by
  have hz : ∀ (fs : List Frag) (T : Nat), (∀ f ∈ fs, f.time = none ∧ f.durations.sum * movie < t.mediaScale) →
      ((segments movie t.mediaScale T fs).map Elst.Entry.duration).sum = 0 ∧
      mediaEnd T fs = T + (fs.map fun f => f.durations.sum).sum := by
    intro fs
    induction fs with
    | nil => intro T _; exact ⟨rfl, rfl⟩
    | cons f fs ih =>
      intro T h
      obtain ⟨h1, h2⟩ := h f (by simp)
      obtain ⟨a, b⟩ := ih (f.endsAt T) (fun g hg => h g (by simp [hg]))
      have e : f.endsAt T = T + f.durations.sum := by unfold Frag.endsAt; rw [h1]; rfl
      constructor
      · simp only [segments, List.map_cons, List.sum_cons, a, Nat.add_zero]
        rw [e, Nat.add_sub_cancel_left]
        exact Nat.div_eq_of_lt h2
      · simp only [mediaEnd, List.map_cons, List.sum_cons]
        rw [b, e]; omega
  obtain ⟨z1, z2⟩ := hz fs (expand t.stts).sum hshort
  obtain ⟨t', t'', k1, k2, k3, k4⟩ := c82_edits_partial movie fs t l hr he hO hs hend
    (by rw [List.map_append, List.sum_append, z1]; omega)
  refine ⟨t', t'', k1, by rw [k3, z2], k4.trans ?_⟩
  unfold lasts
  rw [List.map_append, List.sum_append, z1, Nat.add_zero, if_neg hl0]

/-- An edit list that shows the media from time `m` on, as it is written in files that have all their samples in
fragments: after the fragments, their segments follow it from media time 0, and the track lasts as long as all of the
media. -/
theorem c82_skip_undone (movie scale m d : Nat) (hm : movie < 2 ^ 32) (hs : 0 < scale) (hd : d < 2 ^ 32)
    (hend : scaled d scale movie < 2 ^ 32) :
    ∃ t' t'', runAll (mergeFrag movie) ⟨[], 0, scale, some (some [⟨0, m, 1, false⟩]), 0⟩ [⟨none, none, [d]⟩] = .ok t' ∧
      edits t' = [⟨0, m, 1, false⟩, ⟨scaled d scale movie, 0, 1, false⟩] ∧
      trackDuration movie t' = .ok (scaled d scale movie, t'') := by
  obtain ⟨t', t'', k1, k2, -, k4⟩ := c82_edits_partial movie [⟨none, none, [d]⟩]
    ⟨[], 0, scale, some (some [⟨0, m, 1, false⟩]), 0⟩ [⟨0, m, 1, false⟩] ⟨hm, hs, by simp⟩ rfl
    ⟨rfl, ⟨by simp [expand], by simp [Frag.endsAt, expand]; omega, by simp [expand], by simp⟩, trivial⟩ (by simp [expand])
    (by simpa [mediaEnd, Frag.endsAt, expand] using hend) (by simpa [segments, Frag.endsAt, expand] using hend)
  have hseg : segments movie scale 0 [⟨none, none, [d]⟩] = [⟨scaled d scale movie, 0, 1, false⟩] := by
    simp [segments, Frag.endsAt]
  have h0 : (expand ([] : List (Nat × Nat))).sum = 0 := rfl
  have hme : mediaEnd 0 [⟨none, none, [d]⟩] = d := by simp [mediaEnd, Frag.endsAt]
  dsimp only at k2 k4
  rw [h0, hseg] at k2 k4
  refine ⟨t', t'', k1, k2, k4.trans ?_⟩
  rw [hme]
  unfold lasts
  simp only [List.map_cons, List.map_nil, List.cons_append, List.nil_append, List.sum_cons, List.sum_nil, Nat.zero_add,
    Nat.add_zero]
  split
  · rfl
  · rfl

/-- An empty fragment. In a track without edits the media so far becomes a segment, if there is any; then follows a
segment of the duration given and media time -1. -/
theorem c82_gap {movie : Nat} {t : Trk} (hr : Ready movie t) {f : Frag} {gap : Nat} (hf : f.empty = some gap)
    (hd : f.durations = []) (hF : f.Follows (expand t.stts).sum (expand t.stts).length) (hl : t.edts ≠ some none)
    (hg : gap < 2 ^ 32) (hend : scaled (f.endsAt (expand t.stts).sum) t.mediaScale movie < 2 ^ 32)
    (hsum : ((edits t).map Elst.Entry.duration).sum < 2 ^ 32) :
    ∃ t', mergeFrag movie t f = .ok t' ∧ (expand t'.stts).sum = f.endsAt (expand t.stts).sum ∧
      edits t' = edits t ++
        (if t.edts = none ∧ 0 < (expand t.stts).sum then [⟨scaled (expand t.stts).sum t.mediaScale movie, 0, 1, false⟩] else []) ++
        [⟨scaled gap t.mediaScale movie, -1, 1, false⟩] := by
  obtain ⟨es, k1, k2, k3, k4⟩ := startAt_eq hr.counts rfl rfl hF
  have hle := endsAt_le hF
  obtain ⟨f1, f2, f3, f4⟩ := hF
  obtain ⟨T, hT⟩ : ∃ T, T = (expand t.stts).sum := ⟨_, rfl⟩
  rw [← hT] at f1 f2 f4 k3 hend hle ⊢
  have hE : f.endsAt T = (expand es).sum := by rw [k3]; unfold Frag.endsAt; rw [hd]; simp
  obtain ⟨t1, e1⟩ : ∃ t1, t1 = { calcMedia t with stts := es } := ⟨_, rfl⟩
  have q1 : t1.edts = t.edts := by rw [e1]; rfl
  have q2 : t1.mediaScale = t.mediaScale := by rw [e1]; rfl
  have q3 : t1.stts = es := by rw [e1]
  have q5 : edits t1 = edits t := by unfold edits; rw [q1]
  have h1 : Sane movie t1 := ⟨hr.small, by rw [q2]; exact hr.scale, by rw [q1]; exact hl, by rw [q3]; omega, by rw [q5]; exact hsum,
    by rw [q3, ← hE, q2]; exact hend⟩
  have hmul : ∀ x, x < 2 ^ 32 → x * movie < 2 ^ 64 := fun x hx => by
    have := Nat.mul_lt_mul'' hx hr.small
    omega
  unfold mergeFrag
  rw [k1, hf, ← e1, total_eq (by omega), ← hT]
  simp only [Res.bind]
  by_cases hc : T > 0 ∧ t1.edts = none
  · have hc' : T > 0 ∧ t.edts = none := ⟨hc.1, by rw [← q1]; exact hc.2⟩
    have i1 := insert_end h1 0 T (hmul T (by omega))
    have hed : edits t = [] := by unfold edits; rw [hc'.2]
    rw [q5, q2, hed] at i1
    rw [if_pos hc', i1]
    simp only [List.nil_append]
    obtain ⟨t2, e2⟩ : ∃ t2, t2 = { calcMedia t1 with
      duration := lastsNow movie t1, edts := some (some [⟨scaled T t.mediaScale movie, 0, 1, false⟩]) } := ⟨_, rfl⟩
    have r2 : t2.mediaScale = t.mediaScale := by rw [e2]; exact q2
    have r3 : t2.stts = es := by rw [e2]; exact q3
    have r5 : edits t2 = [⟨scaled T t.mediaScale movie, 0, 1, false⟩] := by rw [e2]; rfl
    have hTs : scaled T t.mediaScale movie < 2 ^ 32 := Nat.lt_of_le_of_lt (scaled_mono hle _ _) hend
    have h2 : Sane movie t2 := ⟨hr.small, by rw [r2]; exact hr.scale, by rw [e2]; simp, by rw [r3]; omega,
      by rw [r5]; simpa using hTs, by rw [r3, ← hE, r2]; exact hend⟩
    have i2 := insert_end h2 (-1) gap (hmul gap hg)
    rw [r5, r2] at i2
    rw [← e2, i2, if_pos ⟨hc'.2, hc'.1⟩, hed]
    refine ⟨_, rfl, ?_, rfl⟩
    show (expand t2.stts).sum = _
    rw [r3, hE]
  · have hc' : ¬(T > 0 ∧ t.edts = none) := by rw [← q1]; exact hc
    have i2 := insert_end h1 (-1) gap (hmul gap hg)
    rw [q5, q2] at i2
    rw [if_neg hc', if_neg (fun h => hc' ⟨h.2, h.1⟩)]
    refine ⟨_, i2, ?_, ?_⟩
    · show (expand t1.stts).sum = _
      rw [q3, hE]
    · show edits t ++ _ = _
      simp

/-- Half a second of media, then half a second of nothing. -/
example : Ready 600 ⟨[(5, 100)], 0, 1000, none, 0⟩ ∧ Frag.Follows ⟨none, some 500, []⟩ 500 5 ∧
    mergeFrag 600 ⟨[(5, 100)], 0, 1000, none, 0⟩ ⟨none, some 500, []⟩ =
      .ok ⟨[(5, 100)], 500, 1000, some (some [⟨300, 0, 1, false⟩, ⟨300, -1, 1, false⟩]), 300⟩ :=
  ⟨⟨by decide, by decide, by simp⟩, ⟨by decide, by decide, by decide, by simp⟩, by decide⟩

/-- The same with a later decode time: the last sample is made longer, but no segment shows what was added. -/
example : mergeFrag 600 ⟨[(5, 100)], 0, 1000, none, 0⟩ ⟨some 1000, some 500, []⟩ =
      .ok ⟨[(4, 100), (1, 600)], 1000, 1000, some (some [⟨300, 0, 1, false⟩, ⟨300, -1, 1, false⟩]), 300⟩ := by decide

/-- A fragment that begins before the media ends is refused. -/
theorem c82_early (movie : Nat) (t : Trk) (f : Frag) {time : Nat} (hf : f.time = some time)
    (hs : (expand t.stts).sum < 2 ^ 32) (h : time < (expand t.stts).sum) : mergeFrag movie t f = .err .invalidMedia := by
  unfold mergeFrag
  rw [hf]
  have : (calcMedia t).mediaDuration = (expand t.stts).sum := total_eq hs
  simp only [startAt, this, h, if_true, Res.bind]

/-- A first fragment that begins after 0 has no sample to extend before it, which is undefined. -/
theorem c82_first_late (movie : Nat) (t : Trk) (f : Frag) {time : Nat} (hf : f.time = some time) (hs : t.stts = [])
    (h : 0 < time) : mergeFrag movie t f = .ub := by
  unfold mergeFrag
  rw [hf]
  have h0 : (calcMedia t).mediaDuration = 0 := by show Stts.totalDuration t.stts = 0; rw [hs]; rfl
  have h1 : (calcMedia t).stts = [] := hs
  have h2 : ¬ time < 0 := by omega
  simp only [startAt, h0, h1, h2, if_false, gt_iff_lt, h, if_true, Stts.extendLast, List.getLast?_nil, Res.bind]

end Verif.Dur

namespace Verif.Reader

open Media (Supplied)

variable {S : List Supplied} {D : Bytes} {C : List (Nat × List Bytes)} {has : Bool} {offs : List Nat} {sync : List Bool}
  {t : Track}

/-- At time -1, which is the largest, the sample found is the one after the last. -/
theorem Stts.sampleNum_max {es : List (Nat × Nat)} (hne : es ≠ []) (hes : Stts.NoOverflow es)
    (hpos : ∀ e ∈ es, 0 < e.1 ∧ 0 < e.2) (hs : (expand es).sum < 18446744073709551615) :
    ∃ dts d, Stts.mediaTimeToSampleNum es 18446744073709551615 = .ok ((expand es).length + 1, dts, d) := by
  have h := hes.count
  have key := fun (t : Nat) (htt : (expand es).sum ≤ t) => Stts.findLoop_end t es 0 1 ⟨Stts.m1, Stts.m1, Stts.m1, 0, none, false⟩ hne
    (fun e he => ⟨(hpos e he).1, (hpos e he).2, hes.run e he⟩) (by omega) (by omega) (by omega)
  obtain ⟨r, r1, r2, r3⟩ := key 18446744073709551615 (by omega)
  unfold Stts.mediaTimeToSampleNum Stts.findSamples
  rw [r1]
  dsimp only
  obtain ⟨a, b⟩ := r3 (by omega)
  obtain ⟨g, g1, g2, -⟩ := key _ (Nat.le_refl _)
  obtain ⟨g3, g4⟩ := g2 (by omega)
  rw [if_neg (by simp [a]), if_pos (by rw [b]; unfold Stts.m1; omega), b, Nat.zero_add, g1]
  dsimp only
  rw [if_neg (by rw [g4]; unfold Stts.m1; omega)]
  exact ⟨g.exact, g.dur, by rw [g4, Nat.add_comm]⟩

/-- No reader can be made for a track that begins with an empty fragment: its segment is not recognised as empty, and
media time -1 is taken for a time in the media. (A gap in between stops the reader there, in the same way.) -/
theorem c82_gap_unread (hG : Good t S D C has offs sync) (hs : Sound S D C) (hne : S ≠ []) (gap : Nat) (es : List Elst.Entry)
    {movieScale mediaScale : Nat} (hmv : 0 < movieScale) (hg : 0 < mediaScale * gap / movieScale)
    (hg' : mediaScale * gap / movieScale ≤ timeOf S S.length) (hm : mediaScale * gap < 2 ^ 64)
    (hsum : gap + (es.map Elst.Entry.duration).sum < 2 ^ 64) :
    setup t (⟨gap, -1, 1, false⟩ :: es) movieScale mediaScale = .err .invalidMedia := by
  obtain ⟨e1, e2⟩ := hG.entries hs
  have hl : (expand t.media.stts.entries).length = S.length := by rw [hG.rep.times, List.length_map]
  have hsum' : (expand t.media.stts.entries).sum = timeOf S S.length := by rw [hG.rep.times, timeOf_length]
  have hpos := List.length_pos_iff.mpr hne
  have htime := hs.time
  obtain ⟨dts, d, g⟩ := Stts.sampleNum_max (es := t.media.stts.entries)
    (by intro e; rw [e] at hl; simp at hl; omega) e1 e2 (by omega)
  have a1 : sampleAt t 18446744073709551615 = .ok (S.length + 1) := by
    unfold sampleAt; rw [g, hl]; rfl
  obtain ⟨f, f1, f2, -⟩ := hG.atTime hs (T := mediaScale * gap / movieScale - 1) (by omega)
  unfold setup
  rw [if_neg (by simp)]
  have hskip : skipEmpty (⟨gap, -1, 1, false⟩ :: es) (⟨gap, -1, 1, false⟩ :: es : List Elst.Entry).length
      ((⟨gap, -1, 1, false⟩ :: es : List Elst.Entry).length + 1) 1 = (1, .ok ()) := by
    simp [skipEmpty, Elst.isEmptyEdit]
  rw [getNextSegment_eq (es := ⟨gap, -1, 1, false⟩ :: es) (n := 1) rfl hskip]
  have hseg := (Elst.c45_segment_times (⟨gap, -1, 1, false⟩ :: es) (by simpa using hsum)).1 0 ⟨gap, -1, 1, false⟩ rfl
  have h0 : Elst.segmentStart (⟨gap, -1, 1, false⟩ :: es) 0 = 0 := rfl
  have h1 : u64i (-1) = 18446744073709551615 := by decide
  have hmod : mediaScale * gap % 18446744073709551616 = mediaScale * gap := Nat.mod_eq_of_lt (by omega)
  have hle : mediaScale * gap / movieScale ≤ mediaScale * gap := Nat.div_le_self _ _
  have h2 : (18446744073709551615 + mediaScale * gap / movieScale) % 18446744073709551616 =
      mediaScale * gap / movieScale - 1 := by omega
  rw [h0] at hseg
  simp only [Nat.zero_add, if_false, Bool.false_eq_true] at hseg
  have hmv' : ¬ movieScale = 0 := by omega
  have hlt : f + 1 < S.length + 1 := by omega
  simp only [enterSegment, blank, hseg, h1, a1, hmod, h2, f2, hmv', if_false, hlt, if_true]

end Verif.Reader
