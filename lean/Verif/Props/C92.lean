import Verif.Props.C18
import Verif.Model.TrackTime

/-!
# C92 — the media time at a track time, and the edits of a track

The full property — the media time returned is that of the segment that plays at the track time — fails for lists with more
than one segment (`c92_following_segment`, `c92_full_fails`) and for empty edits (`c92_empty_edit`).
-/

namespace Verif.TrackTime

open Elst (Entry)

/-! ## What the answer should be -/

/-- The sum of the durations. -/
def total (es : List Entry) : Nat := (es.map Entry.duration).sum

/-- `r` is the time `dt` (in units of `1 / movieScale` seconds), in units of `1 / mediaScale` seconds, up to less than a
second. -/
def Within (movieScale mediaScale dt : Nat) (r : Int) : Prop :=
  r * movieScale ≤ dt * mediaScale ∧ (dt * mediaScale : Int) < (r + mediaScale) * movieScale

/-- The same without error. -/
def Exactly (movieScale mediaScale dt : Nat) (r : Int) : Prop := r * movieScale = dt * mediaScale

/-- What the code makes of a time: whole seconds only. -/
def seconds (movieScale mediaScale dt : Nat) : Nat := dt / movieScale * mediaScale

theorem seconds_within {movieScale mediaScale dt : Nat} (h1 : 0 < movieScale) (h2 : 0 < mediaScale) :
    Within movieScale mediaScale dt (seconds movieScale mediaScale dt) := by
  have hd := Nat.div_add_mod dt movieScale
  have hm := Nat.mod_lt dt h1
  unfold Within seconds
  constructor
  · have : dt / movieScale * mediaScale * movieScale ≤ dt * mediaScale := by
      rw [Nat.mul_right_comm]
      exact Nat.mul_le_mul_right _ (Nat.div_mul_le_self _ _)
    exact_mod_cast this
  · have : dt * mediaScale < (dt / movieScale * mediaScale + mediaScale) * movieScale := by
      have e : (dt / movieScale * mediaScale + mediaScale) * movieScale = (movieScale * (dt / movieScale) + movieScale) * mediaScale := by
        rw [← Nat.succ_mul, ← Nat.mul_succ, Nat.mul_right_comm, Nat.mul_comm movieScale]
      rw [e]
      exact Nat.mul_lt_mul_of_pos_right (by omega) h2
    exact_mod_cast this

theorem seconds_exact {movieScale mediaScale dt : Nat} (h2 : 0 < mediaScale) :
    Exactly movieScale mediaScale dt (seconds movieScale mediaScale dt) ↔ movieScale ∣ dt := by
  have e : Exactly movieScale mediaScale dt (seconds movieScale mediaScale dt) ↔
      dt / movieScale * mediaScale * movieScale = dt * mediaScale := by
    unfold Exactly seconds
    constructor
    · intro h; exact_mod_cast h
    · intro h; exact_mod_cast h
  rw [e, Nat.mul_right_comm]
  constructor
  · intro h
    have := Nat.eq_of_mul_eq_mul_right h2 h
    exact ⟨dt / movieScale, by rw [Nat.mul_comm]; exact this.symm⟩
  · intro h
    rw [Nat.div_mul_cancel h]

/-! ## The loop -/

theorem mediaTimeOf_eq {e : Entry} {t cur ms ds : Nat} (h : cur ≤ t) (ht : t < 18446744073709551616)
    (hr : -9223372036854775808 ≤ e.mediaTime + seconds ms ds (t - cur) ∧ e.mediaTime + seconds ms ds (t - cur) < 9223372036854775808) :
    mediaTimeOf e t cur ms ds = e.mediaTime + seconds ms ds (t - cur) := by
  unfold mediaTimeOf
  have h1 : (t + (18446744073709551616 - cur)) % 18446744073709551616 = t - cur := by omega
  rw [h1]
  show s64 ((u64i e.mediaTime + seconds ms ds (t - cur) % 18446744073709551616) % 18446744073709551616) = _
  generalize seconds ms ds (t - cur) = x at *
  unfold s64 u64i
  split <;> omega

/-- Entries that end before the time. -/
theorem loop_before {t ms ds : Nat} (ht : t < 18446744073709551616) : ∀ (pre : List Entry) (es : List Entry) (cur : Nat) (o : Out),
    cur + total pre < t →
    loop t ms ds (pre ++ es) cur o = loop t ms ds es (cur + total pre)
      { o with prior := match pre.getLast? with
          | some p => seconds ms ds p.duration % 18446744073709551616
          | none => o.prior }
  | [], es, cur, o, h => by simp [total]
  | p :: pre, es, cur, o, h => by
    simp only [total, List.map_cons, List.sum_cons] at h ⊢
    rw [List.cons_append, loop, if_neg (by omega), Nat.mod_eq_of_lt (by omega : cur + p.duration < 18446744073709551616),
      loop_before ht pre es _ _ (by unfold total; omega)]
    unfold total
    rw [Nat.add_assoc]
    congr 2
    cases pre with
    | nil => rfl
    | cons q pre =>
      rw [List.getLast?_cons_cons]
      cases h : (q :: pre).getLast? with
      | some x => rfl
      | none => simp at h

theorem loop_past {t ms ds : Nat} (ht : t < 18446744073709551616) (pre : List Entry) (cur : Nat) (o : Out)
    (h : cur + total pre < t) : ∃ p, loop t ms ds pre cur o = .ok { o with prior := p } := by
  have := loop_before (ms := ms) (ds := ds) ht pre [] cur o h
  rw [List.append_nil] at this
  rw [this]
  exact ⟨_, rfl⟩

theorem toMediaTime_list {es : List Entry} {ms ds t : Nat} (hms : 0 < ms) (hes : es ≠ []) :
    toMediaTime (some (some es)) ms ds t = (timeAndRate es t ms ds).bind fun o => .ok o.mediaTime := by
  unfold toMediaTime
  rw [if_neg (by omega)]
  show (if es.length = 0 then _ else _) = _
  rw [if_neg (by simpa using hes)]
  rfl

theorem editAt_list (es : List Entry) (n : Nat) : editAt (some (some es)) n =
    if n > es.length then .err .badParam
    else if es.length = 0 then .err .notFound
    else (Elst.getIndSegmentTime es n).bind fun r => .ok (r.2.2, r.2.1) := rfl

/-! ## Theorems -/

/-- Without edits: the time in whole seconds, in the scale of the media. It is less than a second too early, and exact just
for the track times that are whole seconds. -/
theorem c92_no_edits (ed : Edits) (hed : ed = none ∨ ed = some none ∨ ed = some (some [])) (ms ds t : Nat) (hms : 0 < ms)
    (hds : 0 < ds) (hr : t / ms * ds < 2 ^ 63) :
    ∃ r, toMediaTime ed ms ds t = .ok r ∧ Within ms ds t r ∧ (Exactly ms ds t r ↔ ms ∣ t) := by
  refine ⟨seconds ms ds t, ?_, seconds_within hms hds, seconds_exact hds⟩
  have e : s64 ((t / ms * ds) % 18446744073709551616) = (seconds ms ds t : Nat) := by
    unfold seconds
    rw [Nat.mod_eq_of_lt (by omega)]
    unfold s64
    rw [if_pos (by omega)]
  unfold toMediaTime
  rw [if_neg (by omega)]
  rcases hed with rfl | rfl | rfl <;> simp [entries, e]

/-- 2.5 seconds in a movie of 600 units per second, for a media of 48000: two seconds are returned. -/
example : toMediaTime none 600 48000 1500 = .ok 96000 ∧ ¬ Exactly 600 48000 1500 96000 ∧ Within 600 48000 1500 96000 := by
  refine ⟨by decide, by unfold Exactly; decide, by unfold Within; decide⟩

/-- With edits, the segment `e` that holds the time (after its start, or at the start of the track, up to its end) is the
one used if the segments after it are short: together they would, from the start of `e`, not reach the time. So it is always
for the last one. The media time is that of the segment and the whole seconds since it began. -/
theorem c92_segment_partial (pre post : List Entry) (e : Entry) (ms ds t : Nat) (hms : 0 < ms) (hds : 0 < ds)
    (ht : t < 2 ^ 64) (hend : total pre + e.duration < 2 ^ 64) (hlo : total pre < t ∨ (pre = [] ∧ t = 0 ∧ post = []))
    (hhi : t ≤ total pre + e.duration) (hpost : post = [] ∨ total pre + total post < t) (hne : e.empty = false)
    (hr : ∀ r, Within ms ds (t - total pre) r → -2 ^ 63 ≤ e.mediaTime + r ∧ e.mediaTime + r < 2 ^ 63) :
    ∃ r, toMediaTime (some (some (pre ++ e :: post))) ms ds t = .ok (e.mediaTime + r) ∧ Within ms ds (t - total pre) r ∧
      (Exactly ms ds (t - total pre) r ↔ ms ∣ t - total pre) ∧
      ∃ o, timeAndRate (pre ++ e :: post) t ms ds = .ok o ∧ o.mediaTime = e.mediaTime + r ∧ o.rate = e.rate := by
  have hw := seconds_within (dt := t - total pre) hms hds
  have hrr := hr _ hw
  have hme := mediaTimeOf_eq (e := e) (t := t) (cur := total pre) (ms := ms) (ds := ds)
    (by rcases hlo with h | ⟨h, h', -⟩
        · omega
        · subst h; simp [total]) ht hrr
  have key : ∃ o, timeAndRate (pre ++ e :: post) t ms ds = .ok o ∧
      o.mediaTime = e.mediaTime + (seconds ms ds (t - total pre) : Nat) ∧ o.rate = e.rate := by
    unfold timeAndRate
    rw [if_neg (by omega)]
    have hpast : ∀ o : Out, ∃ p, loop t ms ds post (total pre) o = .ok { o with prior := p } := by
      intro o
      rcases hpost with h | h
      · subst h; exact ⟨o.prior, rfl⟩
      · exact loop_past ht post _ _ h
    have hhere : ∀ o : Out, ∃ p, loop t ms ds (e :: post) (total pre) o =
        .ok { o with mediaTime := e.mediaTime + (seconds ms ds (t - total pre) : Nat), rate := e.rate, prior := p } := by
      intro o
      obtain ⟨p, hp⟩ := hpast { o with mediaTime := mediaTimeOf e t (total pre) ms ds, rate := e.rate }
      refine ⟨p, ?_⟩
      rw [loop, if_pos (by omega), if_neg (by simp [hne]), hp, hme]
    rcases hlo with h | ⟨h, -, -⟩
    · rw [loop_before ht pre _ 0 _ (by omega), Nat.zero_add]
      obtain ⟨p, hp⟩ := hhere _
      rw [hp]
      exact ⟨_, rfl, rfl, rfl⟩
    · subst h
      obtain ⟨p, hp⟩ := hhere ⟨-1, 65536, 0, 0⟩
      rw [List.nil_append]
      refine ⟨_, hp, rfl, rfl⟩
  obtain ⟨o, ho, h1, h2⟩ := key
  refine ⟨_, ?_, hw, seconds_exact hds, o, ho, h1, h2⟩
  rw [toMediaTime_list hms (by simp), ho]
  show Res.ok o.mediaTime = _
  rw [h1]

/-- An offset of one second, then the media from its time 4000: 2.5 seconds into the track, one whole second into the
media; in the last but one of three segments, the last one being short. -/
example : toMediaTime (some (some [⟨600, -1, 1, true⟩, ⟨3000, 4000, 1, false⟩])) 600 1000 1500 = .ok 5000 ∧
    toMediaTime (some (some [⟨3000, 4000, 1, false⟩, ⟨1200, 70, 1, false⟩])) 600 1000 1800 = .ok 7000 := by decide

/-- **Defect.** The loop does not stop at the segment that holds the time. If one follows that is not shorter, the answer
comes from that one, with the offset in the first. -/
theorem c92_following_segment (pre : List Entry) (e q : Entry) (ms ds t : Nat) (hms : 0 < ms) (hds : 0 < ds) (ht : t < 2 ^ 64)
    (hend : total pre + q.duration < 2 ^ 64) (hlo : total pre < t) (hhi : t ≤ total pre + e.duration)
    (hq : e.duration ≤ q.duration) (he : e.empty = false) (hqe : q.empty = false)
    (hr : ∀ r, Within ms ds (t - total pre) r → -2 ^ 63 ≤ q.mediaTime + r ∧ q.mediaTime + r < 2 ^ 63) :
    ∃ r, toMediaTime (some (some (pre ++ [e, q]))) ms ds t = .ok (q.mediaTime + r) ∧ Within ms ds (t - total pre) r := by
  have hw := seconds_within (dt := t - total pre) hms hds
  have hme := mediaTimeOf_eq (e := q) (t := t) (cur := total pre) (ms := ms) (ds := ds) (by omega) ht (hr _ hw)
  refine ⟨_, ?_, hw⟩
  rw [toMediaTime_list hms (by simp)]
  unfold timeAndRate
  rw [if_neg (by omega), loop_before ht pre _ 0 _ (by omega), Nat.zero_add, loop, if_pos (by omega), if_neg (by simp [he]),
    loop, if_pos (by omega), if_neg (by simp [hqe]), hme]
  rfl

/-- Two segments of 100 seconds, of the media from 0 and from 500: at 50 seconds the media time should be 50. -/
theorem c92_full_fails : toMediaTime (some (some [⟨100, 0, 1, false⟩, ⟨100, 500, 1, false⟩])) 1 1 50 = .ok 550 := by decide

/-- **Defect.** In an empty edit the code reads after the end of its entry. -/
theorem c92_empty_edit (pre post : List Entry) (e : Entry) (ms ds t : Nat) (hms : 0 < ms) (hds : 0 < ds) (ht : t < 2 ^ 64)
    (hend : total pre + e.duration < 2 ^ 64) (hlo : total pre < t ∨ pre = []) (hhi : t ≤ total pre + e.duration)
    (he : e.empty = true) : toMediaTime (some (some (pre ++ e :: post))) ms ds t = .ub := by
  rw [toMediaTime_list hms (by simp)]
  unfold timeAndRate
  rw [if_neg (by omega)]
  rcases hlo with h | h
  · rw [loop_before ht pre _ 0 _ (by omega), Nat.zero_add, loop, if_pos (by omega), if_pos he]; rfl
  · subst h
    rw [List.nil_append, loop, if_pos (by simp [total] at *; omega), if_pos he]; rfl

/-- So after `MP4SetTrackOffset` it is at all times up to the offset. -/
theorem c92_offset_read (es : List Entry) (start d ms ds t : Nat) (hms : 0 < ms) (hds : 0 < ds) (hs : start < 2 ^ 32) (ht : t ≤ start) :
    toMediaTime (some (some (Elst.setTrackOffset es start d))) ms ds t = .ub := by
  obtain ⟨-, e, he, hd, hl⟩ := Elst.c45_track_offset es start d hs
  rw [hl]
  exact c92_empty_edit [] _ e ms ds t hms hds (by omega) (by simp [total]; omega) (Or.inr rfl) (by simp [total]; omega) he

/-- After the last segment the media time is -1 and no error is reported. -/
theorem c92_after_end (es : List Entry) (hes : es ≠ []) (ms ds t : Nat) (hms : 0 < ms) (hds : 0 < ds) (ht : t < 2 ^ 64)
    (hend : total es < t) : toMediaTime (some (some es)) ms ds t = .ok (-1) := by
  rw [toMediaTime_list hms hes]
  unfold timeAndRate
  rw [if_neg (by omega)]
  obtain ⟨p, hp⟩ := loop_past (ms := ms) (ds := ds) ht es 0 ⟨-1, 65536, 0, 0⟩ (by omega)
  rw [hp]
  rfl

example : toMediaTime (some (some [⟨600, -1, 1, true⟩, ⟨3000, 4000, 1, false⟩])) 600 1000 3601 = .ok (-1) := by decide

/-- Time scales that are zero are refused, that of the media only if there are edits. -/
theorem c92_scales (ed : Edits) (ms ds t : Nat) :
    toMediaTime ed 0 ds t = .err .invalidMedia ∧
    (0 < ms → ∀ es, es ≠ [] → toMediaTime (some (some es)) ms 0 t = .err .badParam) ∧
    (0 < ms → toMediaTime none ms 0 t = .ok 0) := by
  refine ⟨rfl, ?_, ?_⟩
  · intro h es hes
    rw [toMediaTime_list h hes]
    unfold timeAndRate
    rw [if_pos (Or.inr rfl)]
    rfl
  · intro h
    unfold toMediaTime
    rw [if_neg (by omega)]
    simp [s64]

/-- The edits of a track by number, from 1: the duration of the segment and its media time, which is -1 for an empty edit. -/
theorem c92_edit (es : List Entry) (hsum : total es < 2 ^ 64) (n : Nat) (e : Entry) (h : es[n]? = some e) :
    editAt (some (some es)) (n + 1) = .ok (e.duration, if e.empty then -1 else e.mediaTime) := by
  have hlt := (List.getElem?_eq_some_iff.mp h).1
  rw [editAt_list, if_neg (by omega), if_neg (by omega), (Elst.c45_segment_times es hsum).1 n e h]
  rfl

/-- Any other number is refused; without edits none is found, or the number is refused as too large. -/
theorem c92_edit_refused (es : List Entry) (hsum : total es < 2 ^ 64) (n : Nat) :
    (editAt none n = .err .notFound) ∧
    (es.length < n → editAt (some (some es)) n = .err .badParam) ∧
    (es ≠ [] → editAt (some (some es)) 0 = .err .badParam) ∧
    (∀ l, l = none ∨ l = some [] → editAt (some l) n = .err (if n = 0 then .notFound else .badParam)) := by
  refine ⟨rfl, ?_, ?_, ?_⟩
  · intro h
    rw [editAt_list, if_pos h]
  · intro h
    rw [editAt_list, if_neg (by omega), if_neg (by simpa using h), (Elst.c45_segment_times es hsum).2 0 (Or.inl rfl)]
    rfl
  · intro l hl
    have : editAt (some l) n = editAt (some (some [])) n := by rcases hl with rfl | rfl <;> rfl
    rw [this, editAt_list, List.length_nil]
    by_cases h : n = 0
    · rw [if_neg (by omega), if_pos h]; rfl
    · rw [if_pos (by omega), if_neg h]

/-- What a file with two edits gives. -/
example : editAt (some (some [⟨600, -7, 1, true⟩, ⟨3000, 4000, 1, false⟩])) 1 = .ok (600, -1) ∧
    editAt (some (some [⟨600, -7, 1, true⟩, ⟨3000, 4000, 1, false⟩])) 2 = .ok (3000, 4000) ∧
    editAt (some (some [⟨600, -7, 1, true⟩, ⟨3000, 4000, 1, false⟩])) 3 = .err .badParam := by decide

end Verif.TrackTime
