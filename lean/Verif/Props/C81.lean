import Verif.Model.Duration
import Verif.Props.C06
import Verif.Props.C18

/-!
# C81: the durations reported for tracks and movies

Full property: a track lasts as long as its edits together or, without any, as long as its samples together,
converted to the time scale of the movie; a movie lasts as long as its longest track; inserting media makes an edit
of that duration. It does not hold for a movie when samples were added since the media was last asked
(`c81_stale`), for media inserted from 0 whose duration happens to be the number the track lasts in other units
(`c81_part_lost`), after the time scale of the movie was changed (`c81_rescaled`), for durations of more than 32
bits (`c81_wraps`, `c81_long`), and an edit box without an edit list is not survived (`c81_no_list`).
-/

namespace Verif.Dur

open Stts (addBatch)

/-! ## Specification -/

/-- `d` units of `scale` per second in units of `movie` per second. -/
def scaled (d scale movie : Nat) : Nat := d * movie / scale

/-- How long a track lasts whose samples last `media`, with the segments `es` in its edit list. -/
def lasts (movie scale media : Nat) (es : List Elst.Entry) : Nat :=
  if (es.map Elst.Entry.duration).sum = 0 then scaled media scale movie else (es.map Elst.Entry.duration).sum

/-- How a track is created: its time scale, and the edit list it has, if any. -/
structure Setup where
  scale : Nat
  list : Option (List Elst.Entry)

def Setup.edits (s : Setup) : List Elst.Entry := s.list.getD []

/-- A track of no samples. -/
def Setup.new (s : Setup) : Trk := ⟨[], 0, s.scale, s.list.map some, 0⟩

/-- What is done with the tracks of a movie, which are numbered from 0. -/
inductive Op where
  | add (i : Nat) (b : Batch)
  | ended (i : Nat)
  | askTrack (i : Nat)
  | askMovie

/-- For track `i`: all that was added so far, and what was added before its media edits were last ended or its
duration last asked for. -/
def tally (i : Nat) (p : List Nat × List Nat) : Op → List Nat × List Nat
  | .add j b => if j = i then (p.1 ++ b.values, p.2) else p
  | .ended j => if j = i then (p.1, p.1) else p
  | .askTrack j => if j = i then (p.1, p.1) else p
  | .askMovie => p

/-- All durations added to track `i`. -/
def added (i : Nat) (ops : List Op) : List Nat := (ops.foldl (tally i) ([], [])).1

/-- Those added before the media edits were last ended, or the duration of the track last asked for. -/
def counted (i : Nat) (ops : List Op) : List Nat := (ops.foldl (tally i) ([], [])).2

/-- The greatest number in a list, 0 if it is empty. -/
def Longest (d : Nat) (l : List Nat) : Prop := (∀ x ∈ l, x ≤ d) ∧ (d = 0 ∨ d ∈ l)

/-- Nothing overflows: at the end, the durations of the samples, of the segments and of the track fit 32 bits. -/
structure Fits (movie : Nat) (setups : List Setup) (ops : List Op) : Prop where
  small : movie < 2 ^ 32
  track : ∀ (i : Nat) s, setups[i]? = some s → 0 < s.scale ∧ (added i ops).length < 2 ^ 32 ∧ (added i ops).sum < 2 ^ 32 ∧
    (s.edits.map Elst.Entry.duration).sum < 2 ^ 32 ∧ scaled (added i ops).sum s.scale movie < 2 ^ 32

/-! ## What the code does -/

/-- One step; what is reported is not part of the state. -/
def step (movie : Nat) (ts : List Trk) : Op → Res (List Trk)
  | .add i b => match ts[i]? with
    | none => .ok ts
    | some t => (addBatch t.stts b).bind fun es => .ok (ts.set i { t with stts := es })
  | .ended i => match ts[i]? with
    | none => .ok ts
    | some t => .ok (ts.set i (calcMedia t))
  | .askTrack i => match ts[i]? with
    | none => .ok ts
    | some t => (trackDuration movie t).bind fun r => .ok (ts.set i r.2)
  | .askMovie => (movieDuration movie ts).bind fun r => .ok r.2

/-! ## Proofs -/

theorem tally_snoc (i : Nat) (ops : List Op) (op : Op) :
    (ops ++ [op]).foldl (tally i) ([], []) = tally i (added i ops, counted i ops) op := by
  rw [List.foldl_append]; rfl

theorem added_append (i : Nat) (a b : List Op) : ∃ x, added i (a ++ b) = added i a ++ x := by
  unfold added
  rw [List.foldl_append]
  generalize a.foldl (tally i) ([], []) = p
  induction b generalizing p with
  | nil => exact ⟨[], by simp⟩
  | cons o b ih =>
    rw [List.foldl_cons]
    obtain ⟨x, hx⟩ := ih (tally i p o)
    rw [hx]
    cases o with
    | add j c =>
      simp only [tally]
      split
      · exact ⟨c.values ++ x, by simp⟩
      · exact ⟨x, rfl⟩
    | ended j => exact ⟨x, by simp only [tally]; split <;> rfl⟩
    | askTrack j => exact ⟨x, by simp only [tally]; split <;> rfl⟩
    | askMovie => exact ⟨x, rfl⟩

theorem counted_le (i : Nat) (ops : List Op) : ∃ x, added i ops = counted i ops ++ x := by
  unfold added counted
  have : ∀ p : List Nat × List Nat, (∃ x, p.1 = p.2 ++ x) → ∃ x, (ops.foldl (tally i) p).1 = (ops.foldl (tally i) p).2 ++ x := by
    induction ops with
    | nil => intro p h; exact h
    | cons o ops ih =>
      intro p h
      rw [List.foldl_cons]
      refine ih _ ?_
      obtain ⟨x, hx⟩ := h
      cases o with
      | add j b => simp only [tally]; split
                   · exact ⟨x ++ b.values, by simp [hx]⟩
                   · exact ⟨x, hx⟩
      | ended j => simp only [tally]; split
                   · exact ⟨[], by simp⟩
                   · exact ⟨x, hx⟩
      | askTrack j => simp only [tally]; split
                      · exact ⟨[], by simp⟩
                      · exact ⟨x, hx⟩
      | askMovie => exact ⟨x, hx⟩
  exact this ([], []) ⟨[], rfl⟩

theorem scaled_mono {a b : Nat} (h : a ≤ b) (scale movie : Nat) : scaled a scale movie ≤ scaled b scale movie :=
  Nat.div_le_div_right (Nat.mul_le_mul_right _ h)

theorem adjusted_eq {d scale movie : Nat} (hd : d < 2 ^ 32) (hm : movie < 2 ^ 32) (hs : 0 < scale)
    (h : scaled d scale movie < 2 ^ 32) : adjusted d scale movie = .ok (scaled d scale movie) := by
  unfold adjusted
  rw [if_neg (by omega)]
  have : d * movie < 2 ^ 32 * 2 ^ 32 := Nat.mul_lt_mul'' hd hm
  have e : d * movie % 18446744073709551616 = d * movie := Nat.mod_eq_of_lt (by omega)
  unfold scaled at h ⊢
  rw [e, Nat.mod_eq_of_lt (by omega)]

/-- A track, and what is known of it. -/
structure Is (t : Trk) (s : Setup) (all known : List Nat) : Prop where
  scale : t.mediaScale = s.scale
  list : t.edts = s.list.map some
  runs : Stts.Runs t.stts
  all : expand t.stts = all
  known : t.mediaDuration = known.sum

theorem Is.track {t : Trk} {s : Setup} {all known : List Nat} (h : Is t s all known) {movie : Nat} (hm : movie < 2 ^ 32)
    (hs : 0 < s.scale) (hk : known.sum < 2 ^ 32) (he : (s.edits.map Elst.Entry.duration).sum < 2 ^ 32)
    (hd : scaled known.sum s.scale movie < 2 ^ 32) :
    calcTrack movie t = .ok { t with duration := lasts movie s.scale known.sum s.edits } ∧
    lasts movie s.scale known.sum s.edits < 2 ^ 32 := by
  have hl : lasts movie s.scale known.sum s.edits < 2 ^ 32 := by unfold lasts; split <;> omega
  refine ⟨?_, hl⟩
  have heff : effective t.edts = .ok (s.edits.map Elst.Entry.duration).sum := by
    rw [h.list]
    unfold Setup.edits at he ⊢
    cases hl : s.list with
    | none => rfl
    | some es =>
      rw [hl] at he
      simp only [Option.map_some, effective, Option.getD_some] at he ⊢
      rw [Elst.c45_effective_duration es (by omega)]
  unfold calcTrack
  rw [heff]
  simp only [Res.bind, lasts]
  split
  · rw [h.known, Nat.mod_eq_of_lt (by omega), h.scale, adjusted_eq (by omega) hm hs hd]
  · rfl

theorem Is.calc {t : Trk} {s : Setup} {all known : List Nat} (h : Is t s all known) (ha : all.sum < 2 ^ 32) :
    Is (calcMedia t) s all all :=
  ⟨h.scale, h.list, h.runs, h.all, by
    show Stts.totalDuration t.stts = _
    rw [Stts.totalDuration_eq, h.all, Nat.mod_eq_of_lt (by omega)]⟩

theorem Is.dur {t : Trk} {s : Setup} {all known : List Nat} (h : Is t s all known) (d : Nat) :
    Is { t with duration := d } s all known := ⟨h.scale, h.list, h.runs, h.all, h.known⟩

theorem Is.ask {t : Trk} {s : Setup} {all known : List Nat} (h : Is t s all known) {movie : Nat} (hm : movie < 2 ^ 32)
    (hs : 0 < s.scale) (hk : all.sum < 2 ^ 32) (he : (s.edits.map Elst.Entry.duration).sum < 2 ^ 32)
    (hd : scaled all.sum s.scale movie < 2 ^ 32) :
    ∃ t', trackDuration movie t = .ok (lasts movie s.scale all.sum s.edits, t') ∧ Is t' s all all := by
  obtain ⟨h1, h2⟩ := (h.calc hk).track hm hs hk he hd
  unfold trackDuration
  rw [h1]
  exact ⟨_, by simp only [Res.bind, Nat.mod_eq_of_lt (show lasts movie s.scale all.sum s.edits < 4294967296 by omega)]; rfl,
    (h.calc hk).dur _⟩

/-- The tracks of a movie. -/
def Are (setups : List Setup) (ts : List Trk) (ops : List Op) : Prop :=
  ts.length = setups.length ∧
  ∀ (i : Nat) s, setups[i]? = some s → ∃ t, ts[i]? = some t ∧ Is t s (added i ops) (counted i ops)

theorem Are.set {setups : List Setup} {ts : List Trk} {ops : List Op} (h : Are setups ts ops) {op : Op} {i : Nat} {t : Trk}
    (hop : ∀ j, j ≠ i → ∀ p, tally j p op = p)
    (ht : ∀ s, setups[i]? = some s → Is t s (tally i (added i ops, counted i ops) op).1 (tally i (added i ops, counted i ops) op).2) :
    Are setups (ts.set i t) (ops ++ [op]) := by
  refine ⟨by rw [List.length_set]; exact h.1, fun j s hj => ?_⟩
  obtain ⟨t0, h1, h2⟩ := h.2 j s hj
  by_cases e : j = i
  · subst e
    refine ⟨t, ?_, ?_⟩
    · rw [List.getElem?_set_self (by have := (List.getElem?_eq_some_iff.1 h1).1; omega)]
    · have := ht s hj
      unfold added counted
      rw [tally_snoc]; exact this
  · refine ⟨t0, by rw [List.getElem?_set_ne (fun h => e h.symm)]; exact h1, ?_⟩
    unfold added counted
    rw [tally_snoc, hop j e]
    exact h2

theorem Are.skip {setups : List Setup} {ts : List Trk} {ops : List Op} (h : Are setups ts ops) {op : Op}
    (hop : ∀ (j : Nat) s, setups[j]? = some s → ∀ p, tally j p op = p) : Are setups ts (ops ++ [op]) := by
  refine ⟨h.1, fun j s hj => ?_⟩
  obtain ⟨t0, h1, h2⟩ := h.2 j s hj
  refine ⟨t0, h1, ?_⟩
  unfold added counted
  rw [tally_snoc, hop j s hj]
  exact h2

theorem movieLoop_eq {movie : Nat} (hm : movie < 2 ^ 32) : ∀ (ts : List Trk) (l : List (Setup × List Nat × List Nat)) (m : Nat),
    ts.length = l.length →
    (∀ (i : Nat) t x, ts[i]? = some t → l[i]? = some x → Is t x.1 x.2.1 x.2.2 ∧ 0 < x.1.scale ∧ x.2.2.sum < 2 ^ 32 ∧
      (x.1.edits.map Elst.Entry.duration).sum < 2 ^ 32 ∧ scaled x.2.2.sum x.1.scale movie < 2 ^ 32) →
    ∃ d ts', movieLoop movie ts m = .ok (d, ts') ∧ ts'.length = ts.length ∧ m ≤ d ∧
      (∀ x ∈ l, lasts movie x.1.scale x.2.2.sum x.1.edits ≤ d) ∧
      (d = m ∨ ∃ x ∈ l, d = lasts movie x.1.scale x.2.2.sum x.1.edits) ∧
      (∀ (i : Nat) t x, ts'[i]? = some t → l[i]? = some x → Is t x.1 x.2.1 x.2.2) := by
  intro ts
  induction ts with
  | nil =>
    intro l m hl _
    have : l = [] := by simpa using hl.symm
    subst this
    exact ⟨m, [], rfl, rfl, Nat.le_refl _, by simp, Or.inl rfl, by simp⟩
  | cons t ts ih =>
    intro l m hl h
    obtain ⟨x, l, rfl⟩ : ∃ x l', l = x :: l' := by
      cases l with
      | nil => simp at hl
      | cons x l => exact ⟨x, l, rfl⟩
    obtain ⟨h0, hs, hk, he, hd⟩ := h 0 t x rfl rfl
    obtain ⟨h1, h2⟩ := h0.track hm hs hk he hd
    unfold movieLoop
    rw [h1]
    simp only [Res.bind]
    generalize hL : lasts movie x.1.scale x.2.2.sum x.1.edits = L at *
    have e : L % 4294967296 = L := Nat.mod_eq_of_lt (by omega)
    rw [e]
    obtain ⟨d, ts', k1, k2, k3, k4, k5, k6⟩ := ih l (if L > m then L else m) (by simpa using hl)
      (fun i t y hi hy => h (i + 1) t y hi hy)
    rw [k1]
    refine ⟨d, _, rfl, by simp [k2], ?_, ?_, ?_, ?_⟩
    · split at k3 <;> omega
    · intro y hy
      rcases List.mem_cons.1 hy with rfl | hy
      · rw [hL]; split at k3 <;> omega
      · exact k4 y hy
    · rcases k5 with k5 | ⟨y, hy, k5⟩
      · split at k5
        · exact Or.inr ⟨x, by simp, by rw [hL]; exact k5⟩
        · exact Or.inl k5
      · exact Or.inr ⟨y, by simp [hy], k5⟩
    · intro i t' y hi hy
      cases i with
      | zero =>
        simp only [List.getElem?_cons_zero, Option.some.injEq] at hi hy
        subst hi; subst hy
        exact h0.dur _
      | succ i => exact k6 i t' y hi hy

theorem Are.ask {setups : List Setup} {ts : List Trk} {ops : List Op} (h : Are setups ts ops) {movie : Nat}
    (hf : Fits movie setups ops) : ∃ d ts', movieDuration movie ts = .ok (d, ts') ∧ Are setups ts' ops ∧
      Longest d (setups.mapIdx fun i s => lasts movie s.scale (counted i ops).sum s.edits) := by
  obtain ⟨l, hl⟩ : ∃ l, l = setups.mapIdx fun i s => (s, added i ops, counted i ops) := ⟨_, rfl⟩
  have hget : ∀ (i : Nat) x, l[i]? = some x → ∃ s, setups[i]? = some s ∧ x = (s, added i ops, counted i ops) := by
    intro i x hx
    rw [hl, List.getElem?_mapIdx] at hx
    obtain ⟨s, h1, h2⟩ := Option.map_eq_some_iff.1 hx
    exact ⟨s, h1, h2.symm⟩
  obtain ⟨d, ts', k1, k2, k3, k4, k5, k6⟩ := movieLoop_eq hf.small ts l 0 (by rw [hl, List.length_mapIdx]; exact h.1) (by
    intro i t x hi hx
    obtain ⟨s, hs, rfl⟩ := hget i x hx
    obtain ⟨t', ht, his⟩ := h.2 i s hs
    rw [hi] at ht
    cases ht
    obtain ⟨f1, f2, f3, f4, f5⟩ := hf.track i s hs
    obtain ⟨y, hy⟩ := counted_le i ops
    have hle : (counted i ops).sum ≤ (added i ops).sum := by rw [hy, List.sum_append]; omega
    have := scaled_mono hle s.scale movie
    exact ⟨his, f1, by show (counted i ops).sum < _; omega, f4, by show scaled (counted i ops).sum s.scale movie < _; omega⟩)
  refine ⟨d, ts', k1, ⟨by rw [k2]; exact h.1, ?_⟩, ?_, ?_⟩
  · intro i s hs
    have hlt : i < ts'.length := by
      rw [k2, h.1]; exact (List.getElem?_eq_some_iff.1 hs).1
    refine ⟨ts'[i], List.getElem?_eq_getElem hlt, ?_⟩
    exact k6 i _ (s, added i ops, counted i ops) (List.getElem?_eq_getElem hlt) (by
      rw [hl, List.getElem?_mapIdx, hs]; rfl)
  · intro x hx
    obtain ⟨i, hi⟩ := List.mem_iff_getElem?.1 hx
    rw [List.getElem?_mapIdx] at hi
    obtain ⟨s, h1, rfl⟩ := Option.map_eq_some_iff.1 hi
    refine k4 (s, added i ops, counted i ops) ?_
    refine List.mem_iff_getElem?.2 ⟨i, ?_⟩
    rw [hl, List.getElem?_mapIdx, h1]; rfl
  · rcases k5 with k5 | ⟨x, hx, k5⟩
    · exact Or.inl k5
    · refine Or.inr ?_
      obtain ⟨i, hi⟩ := List.mem_iff_getElem?.1 hx
      obtain ⟨s, hs, rfl⟩ := hget i x hi
      refine List.mem_iff_getElem?.2 ⟨i, ?_⟩
      rw [List.getElem?_mapIdx, hs, k5]; rfl

theorem Fits.prefix {movie : Nat} {setups : List Setup} {a b : List Op} (h : Fits movie setups (a ++ b)) :
    Fits movie setups a := by
  refine ⟨h.small, fun i s hs => ?_⟩
  obtain ⟨h1, h2, h3, h4, h5⟩ := h.track i s hs
  obtain ⟨x, hx⟩ := added_append i a b
  rw [hx, List.length_append] at h2
  rw [hx, List.sum_append] at h3 h5
  have := scaled_mono (show (added i a).sum ≤ (added i a).sum + x.sum by omega) s.scale movie
  exact ⟨h1, by omega, by omega, h4, by omega⟩

theorem step_are {movie : Nat} {setups : List Setup} {ts : List Trk} {ops : List Op} {op : Op} (h : Are setups ts ops)
    (hf : Fits movie setups (ops ++ [op])) : ∃ ts', step movie ts op = .ok ts' ∧ Are setups ts' (ops ++ [op]) := by
  have hnone : ∀ (i : Nat), ts[i]? = none → ∀ (j : Nat) s, setups[j]? = some s → j ≠ i := by
    intro i hi j s hs e
    subst e
    obtain ⟨t, h1, _⟩ := h.2 j s hs
    rw [hi] at h1; cases h1
  cases op with
  | add i b =>
    cases ht : ts[i]? with
    | none =>
      exact ⟨ts, by simp only [step, ht], h.skip fun j s hs p => by simp only [tally, if_neg (fun e : i = j => hnone i ht j s hs e.symm)]⟩
    | some t =>
      have hi : i < setups.length := by rw [← h.1]; exact (List.getElem?_eq_some_iff.1 ht).1
      obtain ⟨t', h1, h2⟩ := h.2 i _ (List.getElem?_eq_getElem hi)
      rw [ht] at h1; cases h1
      obtain ⟨_, f2, f3, _, _⟩ := hf.track i _ (List.getElem?_eq_getElem hi)
      have ea : added i (ops ++ [.add i b]) = added i ops ++ b.values := by
        unfold added
        rw [tally_snoc]; simp only [tally, if_true]; rfl
      rw [ea, List.length_append] at f2
      obtain ⟨es, g1, g2, g3⟩ := Stts.addBatch_ok h2.runs b (by rw [h2.all]; omega)
      refine ⟨ts.set i { t with stts := es }, by simp only [step, ht, g1, Res.bind], h.set (fun j hj p => by simp only [tally, if_neg (fun e : i = j => hj e.symm)]) fun s hs => ?_⟩
      rw [List.getElem?_eq_getElem hi] at hs
      cases hs
      simp only [tally, if_true]
      exact ⟨h2.scale, h2.list, g3, by rw [g2, h2.all], h2.known⟩
  | ended i =>
    cases ht : ts[i]? with
    | none =>
      exact ⟨ts, by simp only [step, ht], h.skip fun j s hs p => by simp only [tally, if_neg (fun e : i = j => hnone i ht j s hs e.symm)]⟩
    | some t =>
      have hi : i < setups.length := by rw [← h.1]; exact (List.getElem?_eq_some_iff.1 ht).1
      obtain ⟨t', h1, h2⟩ := h.2 i _ (List.getElem?_eq_getElem hi)
      rw [ht] at h1; cases h1
      obtain ⟨_, f2, f3, _, _⟩ := hf.prefix.track i _ (List.getElem?_eq_getElem hi)
      refine ⟨ts.set i (calcMedia t), by simp only [step, ht],
        h.set (fun j hj p => by simp only [tally, if_neg (fun e : i = j => hj e.symm)]) fun s hs => ?_⟩
      rw [List.getElem?_eq_getElem hi] at hs
      cases hs
      simp only [tally, if_true]
      exact h2.calc f3
  | askTrack i =>
    cases ht : ts[i]? with
    | none =>
      exact ⟨ts, by simp only [step, ht], h.skip fun j s hs p => by simp only [tally, if_neg (fun e : i = j => hnone i ht j s hs e.symm)]⟩
    | some t =>
      have hi : i < setups.length := by rw [← h.1]; exact (List.getElem?_eq_some_iff.1 ht).1
      obtain ⟨t', h1, h2⟩ := h.2 i _ (List.getElem?_eq_getElem hi)
      rw [ht] at h1; cases h1
      obtain ⟨f1, f2, f3, f4, f5⟩ := hf.prefix.track i _ (List.getElem?_eq_getElem hi)
      obtain ⟨t', k1, k2⟩ := h2.ask hf.small f1 f3 f4 f5
      refine ⟨ts.set i t', by simp only [step, ht, k1, Res.bind], h.set (fun j hj p => by simp only [tally, if_neg (fun e : i = j => hj e.symm)]) fun s hs => ?_⟩
      rw [List.getElem?_eq_getElem hi] at hs
      cases hs
      simp only [tally, if_true]
      exact k2
  | askMovie =>
    obtain ⟨d, ts', h1, h2, _⟩ := h.ask hf.prefix
    unfold step
    rw [h1]
    exact ⟨ts', rfl, h2.skip fun _ _ _ _ => rfl⟩

theorem run_are {movie : Nat} {setups : List Setup} : ∀ (ops done : List Op) (ts : List Trk), Are setups ts done →
    Fits movie setups (done ++ ops) → ∃ ts', runAll (step movie) ts ops = .ok ts' ∧ Are setups ts' (done ++ ops) := by
  intro ops
  induction ops with
  | nil => intro done ts h _; exact ⟨ts, rfl, by simpa using h⟩
  | cons op ops ih =>
    intro done ts h hf
    have e : done ++ op :: ops = (done ++ [op]) ++ ops := by simp
    rw [e] at hf ⊢
    obtain ⟨ts', h1, h2⟩ := step_are h hf.prefix
    obtain ⟨ts'', h3, h4⟩ := ih _ ts' h2 hf
    exact ⟨ts'', by simp only [runAll, h1, Res.bind]; exact h3, h4⟩

theorem are_new (setups : List Setup) : Are setups (setups.map Setup.new) [] := by
  refine ⟨by simp, fun i s hs => ⟨s.new, by rw [List.getElem?_map, hs]; rfl, rfl, rfl, ⟨by simp [Setup.new], by simp [Setup.new]⟩,
    rfl, rfl⟩⟩

/-! ## The property -/

/-- After anything was done with the tracks of a movie, the duration of a track is that of its edits or of all its
samples, and the duration of the movie is that of its longest track, counting for each track the samples added
before its media edits were last ended or its duration last asked for. -/
theorem c81_history_partial (movie : Nat) (setups : List Setup) (ops : List Op) (hf : Fits movie setups ops) :
    ∃ ts, runAll (step movie) (setups.map Setup.new) ops = .ok ts ∧
      (∀ (i : Nat) s, setups[i]? = some s → ∃ t t', ts[i]? = some t ∧
        trackDuration movie t = .ok (lasts movie s.scale (added i ops).sum s.edits, t')) ∧
      ∃ d ts', movieDuration movie ts = .ok (d, ts') ∧
        Longest d (setups.mapIdx fun i s => lasts movie s.scale (counted i ops).sum s.edits) := by
  obtain ⟨ts, h1, h2⟩ := run_are ops [] _ (are_new setups) (by simpa using hf)
  rw [List.nil_append] at h2
  refine ⟨ts, h1, fun i s hs => ?_, ?_⟩
  · obtain ⟨t, k1, k2⟩ := h2.2 i s hs
    obtain ⟨f1, f2, f3, f4, f5⟩ := hf.track i s hs
    obtain ⟨t', k3, _⟩ := k2.ask hf.small f1 f3 f4 f5
    exact ⟨t, t', k1, k3⟩
  · obtain ⟨d, ts', k1, _, k2⟩ := h2.ask hf
    exact ⟨d, ts', k1, k2⟩

theorem foldl_ended (i : Nat) (l : List Nat) : ∀ p : List Nat × List Nat, (l.map Op.ended).foldl (tally i) p =
    if i ∈ l then (p.1, p.1) else p := by
  induction l with
  | nil => intro p; simp
  | cons a l ih =>
    intro p
    rw [List.map_cons, List.foldl_cons, ih]
    by_cases e : a = i
    · subst e; simp [tally]
    · have : ¬ i = a := fun h => e h.symm
      simp [tally, e, this]

/-- Once the media edits of all tracks were ended, the duration of the movie is that of its longest track, counting
all samples. -/
theorem c81_ended (movie : Nat) (setups : List Setup) (ops : List Op) (hf : Fits movie setups ops) :
    ∃ ts d ts', runAll (step movie) (setups.map Setup.new) (ops ++ (List.range setups.length).map Op.ended) = .ok ts ∧
      movieDuration movie ts = .ok (d, ts') ∧
      Longest d (setups.mapIdx fun i s => lasts movie s.scale (added i ops).sum s.edits) := by
  have e1 : ∀ i, added i (ops ++ (List.range setups.length).map Op.ended) = added i ops := by
    intro i
    unfold added
    rw [List.foldl_append, foldl_ended]
    split <;> rfl
  have e2 : ∀ i, i < setups.length → counted i (ops ++ (List.range setups.length).map Op.ended) = added i ops := by
    intro i hi
    unfold counted added
    rw [List.foldl_append, foldl_ended, if_pos (List.mem_range.2 hi)]
  obtain ⟨ts, h1, _, d, ts', h2, h3⟩ := c81_history_partial movie setups (ops ++ (List.range setups.length).map Op.ended)
    ⟨hf.small, fun i s hs => by rw [e1]; exact hf.track i s hs⟩
  refine ⟨ts, d, ts', h1, h2, ?_⟩
  have : (setups.mapIdx fun i s => lasts movie s.scale (counted i (ops ++ (List.range setups.length).map Op.ended)).sum s.edits) =
      setups.mapIdx fun i s => lasts movie s.scale (added i ops).sum s.edits := by
    apply List.ext_getElem?
    intro i
    rw [List.getElem?_mapIdx, List.getElem?_mapIdx]
    cases hs : setups[i]? with
    | none => rfl
    | some s => simp only [Option.map_some, e2 i (List.getElem?_eq_some_iff.1 hs).1]
  rw [← this]
  exact h3

/-- Samples that were added, but not counted by ending the media edits or asking for the duration of the track, are not
part of the movie: it lasts 0, its track does not. -/
theorem c81_stale (movie scale : Nat) (b : Batch) (hf : Fits movie [⟨scale, none⟩] [.add 0 b]) :
    ∃ t t' ts', runAll (step movie) [Setup.new ⟨scale, none⟩] [.add 0 b] = .ok [t] ∧
      trackDuration movie t = .ok (scaled b.values.sum scale movie, t') ∧ movieDuration movie [t] = .ok (0, ts') := by
  obtain ⟨ts, h1, h2, d, ts', h3, h4⟩ := c81_history_partial movie [⟨scale, none⟩] [.add 0 b] hf
  obtain ⟨t, t', k1, k2⟩ := h2 0 _ rfl
  obtain ⟨ts1, g1, g2⟩ := run_are [.add 0 b] [] _ (are_new [⟨scale, none⟩]) hf
  rw [h1] at g1
  cases g1
  have e : ts = [t] := by
    have := g2.1
    match ts, this with
    | [x], _ => simp at k1; rw [k1]
  subst e
  have e2 : (added 0 [.add 0 b]).sum = b.values.sum := by simp [added, tally]
  rw [e2] at k2
  refine ⟨t, t', ts', h1, by simpa [lasts, Setup.edits] using k2, ?_⟩
  have : d = 0 := by
    rcases h4.2 with h | h
    · exact h
    · simpa [counted, tally, lasts, Setup.edits, scaled] using h
  rw [← this]; exact h3

/-- Half a second of two samples at 600 per second. -/
example : Fits 600 [⟨600, none⟩] [.add 0 (.uniform 2 150)] := by
  refine ⟨by decide, fun i s h => ?_⟩
  cases i with
  | zero => cases h; decide
  | succ i => simp at h

/-- Two tracks, one with an offset; samples are added to both, but only counted for the second. -/
example : Fits 600 [⟨90000, none⟩, ⟨600, some [⟨300, -1, 1, true⟩, ⟨150, 0, 1, false⟩]⟩]
    [.add 0 (.uniform 2 90000), .add 1 (.each [100, 50]), .ended 1, .askMovie, .add 1 (.each [7])] ∧
    added 1 [.add 0 (.uniform 2 90000), .add 1 (.each [100, 50]), .ended 1, .askMovie, .add 1 (.each [7])] = [100, 50, 7] ∧
    counted 1 [.add 0 (.uniform 2 90000), .add 1 (.each [100, 50]), .ended 1, .askMovie, .add 1 (.each [7])] = [100, 50] := by
  refine ⟨⟨by decide, fun i s h => ?_⟩, by decide, by decide⟩
  match i with
  | 0 => cases h; decide
  | 1 => cases h; decide
  | i + 2 => simp at h

/-! ## Inserting media -/

/-- A track whose durations fit 32 bits, with an edit list in its edit box, if it has one. -/
structure Sane (movie : Nat) (t : Trk) : Prop where
  small : movie < 2 ^ 32
  scale : 0 < t.mediaScale
  list : t.edts ≠ some none
  media : (expand t.stts).sum < 2 ^ 32
  segments : ((edits t).map Elst.Entry.duration).sum < 2 ^ 32
  track : scaled (expand t.stts).sum t.mediaScale movie < 2 ^ 32

/-- How long a track lasts. -/
def lastsNow (movie : Nat) (t : Trk) : Nat := lasts movie t.mediaScale (expand t.stts).sum (edits t)

theorem Sane.track_eq {movie : Nat} {t : Trk} (h : Sane movie t) :
    trackDuration movie t = .ok (lastsNow movie t, { calcMedia t with duration := lastsNow movie t }) := by
  have hL : lastsNow movie t < 2 ^ 32 := by
    have h1 := h.segments; have h2 := h.track
    unfold lastsNow lasts; split <;> omega
  have hm : (calcMedia t).mediaDuration = (expand t.stts).sum := by
    show Stts.totalDuration t.stts = _
    rw [Stts.totalDuration_eq, Nat.mod_eq_of_lt (by have := h.media; omega)]
  have heff : effective (calcMedia t).edts = .ok ((edits t).map Elst.Entry.duration).sum := by
    show effective t.edts = _
    have h1 := h.list; have h2 := h.segments
    unfold edits at h2 ⊢
    match ht : t.edts with
    | none => rfl
    | some none => exact absurd ht h1
    | some (some es) =>
      rw [ht] at h2
      simp only [effective]
      rw [Elst.c45_effective_duration es (by simpa using h2)]
  have hc : calcTrack movie (calcMedia t) = .ok { calcMedia t with duration := lastsNow movie t } := by
    unfold calcTrack
    rw [heff]
    simp only [Res.bind, lastsNow, lasts]
    split
    · have := h.media
      have hs : (calcMedia t).mediaScale = t.mediaScale := rfl
      rw [hm, Nat.mod_eq_of_lt (by omega), hs, adjusted_eq this h.small h.scale h.track]
    · rfl
  unfold trackDuration
  rw [hc]
  simp only [Res.bind, Nat.mod_eq_of_lt (show lastsNow movie t < 4294967296 by omega)]

/-- The segment made for `d` units of the media from `mediaStart` on. -/
def segment (movie scale : Nat) (mediaStart : Int) (d rate : Nat) : Elst.Entry := ⟨scaled d scale movie, mediaStart, rate, false⟩

/-- The call is about all of a track from its beginning, for which no edits are made. -/
def Whole (movie : Nat) (t : Trk) (start mediaStart : Int) (d rate : Nat) : Prop :=
  start = 0 ∧ mediaStart = 0 ∧ rate = 1 ∧ d = lastsNow movie t

theorem insert_eq {movie : Nat} {t : Trk} (h : Sane movie t) {start mediaStart : Int} {d rate : Nat} (hr : rate ≤ 1)
    (hw : ¬ Whole movie t start mediaStart d rate) (hd : d * movie < 2 ^ 64) :
    insertMedia movie t start mediaStart d rate =
      (Elst.insertSegment (edits t) start mediaStart (scaled d t.mediaScale movie) rate).bind fun es =>
      .ok { calcMedia t with duration := lastsNow movie t, edts := some (some es) } := by
  unfold insertMedia
  rw [if_neg (by omega), h.track_eq]
  simp only [Res.bind]
  rw [if_neg (by
    rintro ⟨h1, h2, h3, h4⟩
    exact hw ⟨h1, h2, by omega, h4⟩), if_neg (by have := h.scale; omega), Nat.mod_eq_of_lt (by omega)]
  rfl

/-- Media inserted at the end of a track with edits is one more segment; inserted in a track without edits it is the
first segment, behind an empty one up to the time of the track it was inserted at. The track then lasts as long as
its segments. -/
theorem c81_insert_partial {movie : Nat} {t : Trk} (h : Sane movie t) {start mediaStart : Int} {d rate : Nat} (hr : rate ≤ 1)
    (hw : ¬ Whole movie t start mediaStart d rate) (hd : d * movie < 2 ^ 64) (hs : edits t = [] ∨ start = -1) :
    ∃ t', insertMedia movie t start mediaStart d rate = .ok t' ∧
      edits t' = edits t ++ (if 0 < start then [⟨start.toNat, -1, 1, true⟩] else []) ++ [segment movie t.mediaScale mediaStart d rate] ∧
      expand t'.stts = expand t.stts ∧
      (((edits t').map Elst.Entry.duration).sum < 2 ^ 32 →
        ∃ t'', trackDuration movie t' = .ok (lasts movie t.mediaScale (expand t.stts).sum (edits t'), t'')) := by
  rw [insert_eq h hr hw hd]
  obtain ⟨es, h1, h2⟩ : ∃ es, Elst.insertSegment (edits t) start mediaStart (scaled d t.mediaScale movie) rate = .ok es ∧
      es = edits t ++ (if 0 < start then [⟨start.toNat, -1, 1, true⟩] else []) ++ [segment movie t.mediaScale mediaStart d rate] := by
    unfold Elst.insertSegment
    by_cases e : edits t = []
    · rw [if_pos e]
      exact ⟨_, rfl, by rw [e]; rfl⟩
    · have : start = -1 := hs.resolve_left e
      subst this
      rw [if_neg e, if_pos rfl]
      exact ⟨_, rfl, by simp [segment]⟩
  rw [h1]
  refine ⟨_, rfl, h2, rfl, fun hsum => ?_⟩
  have hS : Sane movie { calcMedia t with duration := lastsNow movie t, edts := some (some es) } :=
    ⟨h.small, h.scale, by simp, h.media, hsum, h.track⟩
  exact ⟨_, hS.track_eq⟩

/-- Anywhere else, nothing can be inserted in a track with edits. -/
theorem c81_insert_between {movie : Nat} {t : Trk} (h : Sane movie t) {start mediaStart : Int} {d rate : Nat} (hr : rate ≤ 1)
    (hw : ¬ Whole movie t start mediaStart d rate) (hd : d * movie < 2 ^ 64) (hs : edits t ≠ []) (hn : start ≠ -1) :
    insertMedia movie t start mediaStart d rate = .err .notImplemented := by
  rw [insert_eq h hr hw hd]
  unfold Elst.insertSegment
  rw [if_neg hs, if_neg hn]
  rfl

/-- No edits are made for all of a track from its beginning. Whether it is all is told by the duration, in units of the
media, being the number that the track lasts in units of the movie. -/
theorem c81_whole {movie : Nat} {t : Trk} (h : Sane movie t) (hn : lastsNow movie t ≠ 0) :
    ∃ t', insertMedia movie t 0 0 (lastsNow movie t) 1 = .ok t' ∧ t'.edts = t.edts ∧ t'.stts = t.stts := by
  refine ⟨{ calcMedia t with duration := lastsNow movie t }, ?_, rfl, rfl⟩
  unfold insertMedia
  rw [if_neg (by omega), h.track_eq]
  simp only [Res.bind]
  rw [if_pos (by simp), if_neg hn]

/-- So the first half of a media with twice the time scale of the movie cannot be inserted: nothing is done, and all of
the media is played. -/
theorem c81_part_lost {movie : Nat} {t : Trk} (h : Sane movie t) (hs : t.mediaScale = 2 * movie) (he : t.edts = none)
    {half : Nat} (hh : (expand t.stts).sum = 2 * half) (hn : half ≠ 0) (hm : 0 < movie) :
    ∃ t' t'', insertMedia movie t 0 0 half 1 = .ok t' ∧ t'.edts = none ∧
      trackDuration movie t' = .ok (scaled (2 * half) t.mediaScale movie, t'') ∧
      scaled half t.mediaScale movie < scaled (2 * half) t.mediaScale movie := by
  have hL : lastsNow movie t = half := by
    unfold lastsNow lasts edits
    rw [he, hs, hh]
    simp only [List.map_nil, List.sum_nil, if_true, scaled]
    rw [Nat.mul_assoc, Nat.mul_div_mul_left _ _ (by decide), Nat.mul_div_cancel _ hm]
  have e1 : scaled (2 * half) t.mediaScale movie = half := by
    unfold scaled
    rw [hs, Nat.mul_assoc, Nat.mul_div_mul_left _ _ (by decide), Nat.mul_div_cancel _ hm]
  have e2 : scaled half t.mediaScale movie = half / 2 := by
    unfold scaled
    rw [hs, Nat.mul_div_mul_right _ _ hm]
  obtain ⟨t', h1, h2, h3⟩ := c81_whole h (by rw [hL]; exact hn)
  rw [hL] at h1
  have h1' : t' = { calcMedia t with duration := lastsNow movie t } := by
    have : insertMedia movie t 0 0 half 1 = .ok { calcMedia t with duration := lastsNow movie t } := by
      unfold insertMedia
      rw [if_neg (by omega), h.track_eq, hL]
      simp only [Res.bind]
      rw [if_pos (by simp), if_neg hn]
    rw [this] at h1
    exact (Res.ok.inj h1).symm
  have hS : Sane movie t' := by
    rw [h1']
    exact ⟨h.small, h.scale, h.list, h.media, h.segments, h.track⟩
  have hl : lastsNow movie t' = lastsNow movie t := by rw [h1']; rfl
  refine ⟨t', { calcMedia t' with duration := lastsNow movie t' }, h1, by rw [h2, he], ?_, by rw [e1, e2]; omega⟩
  rw [hS.track_eq, hl, hL, e1]

/-- One second of media at 1200 per second, in a movie of 600 per second. -/
example : Sane 600 ⟨[(2, 600)], 0, 1200, none, 0⟩ := ⟨by decide, by decide, by decide, by decide, by decide, by decide⟩

/-- A dwell, which the header describes as a rate of -1, is refused. -/
theorem c81_dwell (movie : Nat) (t : Trk) (start mediaStart : Int) (d : Nat) :
    insertMedia movie t start mediaStart d (-1) = .err .badParam := rfl

/-! ## Offsets -/

/-- After setting a track offset, the offset is reported, and the track lasts that much longer than its segments after an
empty first one, or than before if it had no segments. -/
theorem c81_offset {movie : Nat} {t : Trk} (h : Sane movie t) {offset : Nat} (ho : offset < 2 ^ 32) :
    ∃ t', setOffset movie t offset = .ok t' ∧ getOffset t' = offset ∧
      (((edits t').map Elst.Entry.duration).sum =
        offset + if edits t = [] then lastsNow movie t else ((Elst.afterOffset (edits t)).map Elst.Entry.duration).sum) ∧
      (((edits t').map Elst.Entry.duration).sum < 2 ^ 32 →
        ∃ t'', trackDuration movie t' = .ok (lasts movie t.mediaScale (expand t.stts).sum (edits t'), t'')) := by
  unfold setOffset
  rw [h.track_eq]
  simp only [Res.bind]
  obtain ⟨k1, e, k2, k3, k4⟩ := Elst.c45_track_offset (edits t) offset (lastsNow movie t) (by omega)
  refine ⟨_, rfl, k1, ?_, fun hsum => ?_⟩
  · show ((Elst.setTrackOffset (edits t) offset (lastsNow movie t)).map Elst.Entry.duration).sum = _
    rw [k4]
    split
    · simp [k3]
    · simp [k3]
  · have hS : Sane movie { calcMedia t with
        duration := lastsNow movie t, edts := some (some (Elst.setTrackOffset (edits t) offset (lastsNow movie t))) } :=
      ⟨h.small, h.scale, by simp, h.media, hsum, h.track⟩
    exact ⟨_, hS.track_eq⟩

/-! ## What is wrong -/

/-- Setting the time scale of a movie leaves the segments as they are (MovieAtom.c 174-190, where a comment says so): a
track with edits lasts the same number of other units. -/
theorem c81_rescaled {movie other : Nat} {t : Trk} (h : Sane movie t) (h' : Sane other t)
    (hn : ((edits t).map Elst.Entry.duration).sum ≠ 0) : ∃ t1 t2, trackDuration movie t = .ok (((edits t).map Elst.Entry.duration).sum, t1) ∧
      trackDuration other t = .ok (((edits t).map Elst.Entry.duration).sum, t2) := by
  have e : ∀ m, lastsNow m t = ((edits t).map Elst.Entry.duration).sum := fun m => if_neg hn
  have k := h.track_eq
  have k' := h'.track_eq
  rw [e] at k k'
  exact ⟨_, _, k, k'⟩

/-- An edit box without an edit list, as it may be in a file, is taken to have one. -/
theorem c81_no_list (movie : Nat) (t : Trk) (h : t.edts = some none) (ts : List Trk) :
    trackDuration movie t = .ub ∧ movieDuration movie (t :: ts) = .ub := by
  have h1 : ∀ t : Trk, t.edts = some none → calcTrack movie t = .ub := by
    intro t h
    unfold calcTrack
    rw [h]; rfl
  refine ⟨?_, ?_⟩
  · unfold trackDuration
    rw [h1 (calcMedia t) h]; rfl
  · unfold movieDuration movieLoop
    rw [h1 t h]; rfl

/-- A time scale of 0 in one track, as it may be in a file, leaves the whole movie without a duration. -/
theorem c81_no_scale (movie : Nat) (t : Trk) (h : t.edts = none) (hs : t.mediaScale = 0) (ts : List Trk) :
    trackDuration movie t = .err .badParam ∧ movieDuration movie (t :: ts) = .err .badParam := by
  have h1 : ∀ t : Trk, t.edts = none → t.mediaScale = 0 → calcTrack movie t = .err .badParam := by
    intro t h hs
    unfold calcTrack adjusted
    rw [h, hs]; rfl
  refine ⟨?_, ?_⟩
  · unfold trackDuration
    rw [h1 (calcMedia t) h hs]; rfl
  · unfold movieDuration movieLoop
    rw [h1 t h hs]; rfl

/-- A segment of a multiple of 2^32 units is taken for none. -/
theorem c81_wraps {movie : Nat} {t : Trk} (h : Sane movie { t with edts := none }) {k : Nat}
    (he : t.edts = some (some [⟨2 ^ 32 * k, 0, 1, false⟩])) :
    ∃ t', trackDuration movie t = .ok (scaled (expand t.stts).sum t.mediaScale movie, t') := by
  have e : Elst.effectiveDuration [⟨2 ^ 32 * k, 0, 1, false⟩] = 0 := by
    simp only [Elst.effectiveDuration, List.foldl_cons, List.foldl_nil]
    omega
  have h0 := h.media
  have h1 := h.track
  have hm : (calcMedia t).mediaDuration = (expand t.stts).sum := by
    show Stts.totalDuration t.stts = _
    rw [Stts.totalDuration_eq, Nat.mod_eq_of_lt (by have := h.media; omega)]
  have hc : calcTrack movie (calcMedia t) = .ok { calcMedia t with duration := scaled (expand t.stts).sum t.mediaScale movie } := by
    unfold calcTrack
    have h2 : (calcMedia t).edts = some (some [⟨2 ^ 32 * k, 0, 1, false⟩]) := he
    have hs : (calcMedia t).mediaScale = t.mediaScale := rfl
    rw [h2]
    simp only [effective, Res.bind, e, if_true]
    rw [hm, Nat.mod_eq_of_lt (by omega), hs, adjusted_eq h0 h.small h.scale h1]
    simp only [h2]
  unfold trackDuration
  rw [hc]
  exact ⟨_, by simp only [Res.bind, Nat.mod_eq_of_lt (show scaled (expand t.stts).sum t.mediaScale movie < 4294967296 by omega)]; rfl⟩

/-- The duration of a media header in a file, if it needs more than 32 bits, loses the others. -/
theorem c81_long (x : Nat) (hx : x < 2 ^ 32) (t : Trk) (h : t.edts = none) (hs : t.mediaScale = 1)
    (hm : t.mediaDuration = 2 ^ 32 + x) : ∃ ts', movieDuration 1 [t] = .ok (x, ts') := by
  have h1 : calcTrack 1 t = .ok { t with duration := x } := by
    unfold calcTrack adjusted
    have e : (2 ^ 32 + x) % 4294967296 = x := by omega
    rw [h, hm, hs, e]
    simp only [effective, Res.bind, if_true]
    rw [if_neg (by decide), Nat.mul_one, Nat.div_one, Nat.mod_eq_of_lt (show x < 18446744073709551616 by omega), Nat.mod_eq_of_lt (show x < 4294967296 by omega)]
  unfold movieDuration movieLoop
  rw [h1]
  simp only [Res.bind, movieLoop]
  rw [Nat.mod_eq_of_lt (by omega)]
  have e : (if x > 0 then x else 0) = x := by split <;> omega
  rw [e]
  exact ⟨_, rfl⟩

end Verif.Dur
