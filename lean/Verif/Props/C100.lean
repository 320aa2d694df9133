import Verif.Spec.Display

/-!
# C100: how a movie and its tracks are to be shown is what was set last, also after writing and reading
-/

namespace Verif.Display

open Verif.Headers

/-- The header of a track holds what was set. -/
structure Rep (h : Tkhd) (t : TrackLook) : Prop where
  version : h.version = 0
  flags : h.flags = if t.enabled then 7 else 6
  id : h.trackID = t.id ∧ t.id < 2 ^ 32
  reserved : h.reserved2.length = 8
  matrix : h.matrix = t.matrix ∧ FitsMatrix t.matrix
  layer : h.layer % 65536 = u32i t.layer % 65536 ∧ IsS16 t.layer
  volume : h.volume % 65536 = u32i t.volume % 65536 ∧ IsS16 t.volume
  width : h.width = t.width * 65536 ∧ t.width < 65536
  height : h.height = t.height * 65536 ∧ t.height < 65536

theorem s16_of {n : Nat} {v : Int} (h : n % 65536 = u32i v % 65536) (hv : IsS16 v) : s16 n = v := by
  unfold s16
  rw [h]
  unfold IsS16 at hv
  unfold u32i
  obtain ⟨h1, h2⟩ := hv
  split <;> omega

theorem bit_back : ∀ b : Bool, decide ((if (if b then 7 else 6) &&& 1 ≠ 0 then 1 else 0) = 1) = b := by decide

theorem Rep.answers {h : Tkhd} {t : TrackLook} (r : Rep h t) : trackAnswers h = t := by
  unfold trackAnswers getEnabled getMatrixOf getLayer getVolume getDimensions
  rw [s16_of r.layer.1 r.layer.2, s16_of r.volume.1 r.volume.2, r.flags, r.id.1, r.matrix.1, r.width.1, r.height.1,
    Nat.shiftRight_eq_div_pow, Nat.shiftRight_eq_div_pow]
  have e1 : t.width * 65536 / 2 ^ 16 = t.width := Nat.mul_div_cancel t.width (show 0 < 65536 by decide)
  have e2 : t.height * 65536 / 2 ^ 16 = t.height := Nat.mul_div_cancel t.height (show 0 < 65536 by decide)
  rw [e1, e2, bit_back]

theorem identity_unit : identity = unit := by decide
theorem unit_fits : FitsMatrix unit := by unfold FitsMatrix; decide

theorem shift16 {w : Nat} (h : w < 65536) : w32(w <<< 16) = w * 65536 := by
  rw [Nat.shiftLeft_eq, show (2 : Nat) ^ 16 = 65536 from rfl]
  omega

theorem set_flags : ∀ b : Bool, (if b then 7 else 6) ||| 1 = 7 ∧ (if b then 7 else 6) &&& 0xFFFFFFFE = 6 := by decide

theorem Rep.dims {h : Tkhd} {t : TrackLook} (r : Rep h t) {a b w ht : Nat} (ha : a = w * 65536) (hw : w < 65536) (hb : b = ht * 65536)
    (hh : ht < 65536) : Rep { h with width := a, height := b } { t with width := w, height := ht } :=
  ⟨r.version, r.flags, r.id, r.reserved, r.matrix, r.layer, r.volume, ⟨ha, hw⟩, ⟨hb, hh⟩⟩

theorem Rep.set {h : Tkhd} {t : TrackLook} (r : Rep h t) {c : TrackCall} (hc : c.Fits) : Rep (setTrack h c) (t.set c) := by
  cases c with
  | enabled e =>
    refine ⟨r.version, ?_, r.id, r.reserved, r.matrix, r.layer, r.volume, r.width, r.height⟩
    show (if e ≠ 0 then h.flags ||| 1 else h.flags &&& 0xFFFFFFFE) = if (e != 0) = true then 7 else 6
    obtain ⟨f1, f2⟩ := set_flags t.enabled
    rw [r.flags, f1, f2]
    by_cases he : e = 0
    · subst he; rfl
    · rw [if_pos he, if_pos (by simpa using he)]
  | matrix m =>
    refine ⟨r.version, r.flags, r.id, r.reserved, ?_, r.layer, r.volume, r.width, r.height⟩
    show m.getD identity = m.getD unit ∧ FitsMatrix (m.getD unit)
    rw [identity_unit]
    cases m with
    | none => exact ⟨rfl, unit_fits⟩
    | some x => exact ⟨rfl, hc x rfl⟩
  | layer l =>
    refine ⟨r.version, r.flags, r.id, r.reserved, r.matrix, ?_, r.volume, r.width, r.height⟩
    show u32i l % 65536 = u32i l % 65536 ∧ IsS16 l
    exact ⟨rfl, hc⟩
  | dimensions w ht =>
    exact r.dims (shift16 hc.1) hc.1 (shift16 hc.2) hc.2
  | volume v =>
    refine ⟨r.version, r.flags, r.id, r.reserved, r.matrix, r.layer, ?_, r.width, r.height⟩
    show u32i v % 65536 = u32i v % 65536 ∧ IsS16 v
    exact ⟨rfl, hc⟩

theorem test_bit (kind k : Nat) : (kind &&& 2 ^ k ≠ 0) ↔ kind.testBit k = true := by
  constructor
  · intro h
    cases hb : kind.testBit k
    · refine absurd ?_ h
      apply Nat.eq_of_testBit_eq
      intro i
      rw [Nat.testBit_and, Nat.testBit_two_pow, Nat.zero_testBit]
      by_cases hi : k = i
      · subst hi; rw [hb]; rfl
      · rw [decide_eq_false hi, Bool.and_false]
    · rfl
  · intro h h0
    have := congrArg (fun n => n.testBit k) h0
    simp only [Nat.testBit_and, Nat.testBit_two_pow_self, h, Nat.zero_testBit] at this
    cases this

def plain (id now width height volume : Nat) : Tkhd :=
  ⟨0, 7, now, now, id, 0, 0, zeros 8, 0, 0, volume, 0, identity, width, height⟩

theorem newTrack_eq (kind id now : Nat) : newTrack kind id now =
    if kind.testBit 1 then plain id now (320 * 65536) (240 * 65536) 0 else if kind.testBit 2 then plain id now 0 0 256 else plain id now 0 0 0 := by
  have h1 := test_bit kind 1
  have h2 := test_bit kind 2
  unfold newTrack
  cases hv : kind.testBit 1
  · rw [if_neg (by rw [h1, hv]; decide)]
    cases ha : kind.testBit 2
    · rw [if_neg (by rw [h2, ha]; decide)]; rfl
    · rw [if_pos (by rw [h2, ha])]; rfl
  · rw [if_pos (by rw [h1, hv])]; rfl

theorem rep_plain {id now w h : Nat} {v : Int} (hid : id < 2 ^ 32) (hw : w < 65536) (hh : h < 65536) (hv : IsS16 v) :
    Rep (plain id now (w * 65536) (h * 65536) (u32i v)) ⟨id, true, unit, 0, w, h, v⟩ :=
  ⟨rfl, rfl, ⟨rfl, hid⟩, rfl, ⟨identity_unit, unit_fits⟩, ⟨rfl, by show IsS16 0; unfold IsS16; decide⟩, ⟨rfl, hv⟩, ⟨rfl, hw⟩, ⟨rfl, hh⟩⟩

theorem rep_new (kind id now : Nat) (hid : id < 2 ^ 32) :
    Rep (newTrack kind id now) (TrackLook.new (kind.testBit 1) (kind.testBit 2) id) := by
  have z : IsS16 0 := by unfold IsS16; decide
  have z1 : IsS16 256 := by unfold IsS16; decide
  rw [newTrack_eq]
  unfold TrackLook.new
  cases kind.testBit 1
  · cases kind.testBit 2
    · exact rep_plain hid (w := 0) (h := 0) (by decide) (by decide) z
    · exact rep_plain hid (w := 0) (h := 0) (by decide) (by decide) z1
  · exact rep_plain hid (w := 320) (h := 240) (by decide) (by decide) z

theorem Rep.reread {h : Tkhd} {t : TrackLook} (r : Rep h t) :
    ∃ h', reread (tkhdSize h) (tkhdSerialize h) tkhdParse = .ok h' ∧ Rep h' t := by
  have hf : h.flags < 2 ^ 24 := by rw [r.flags]; split <;> decide
  have hb := (c44_track_header h (by rw [r.version]; decide) hf r.reserved).1
  obtain ⟨hd, hr⟩ := hb.read []
  rw [List.append_nil] at hr
  refine ⟨keptTkhd h, ?_, ?_⟩
  · unfold Display.reread
    rw [hb.write]
    show (parseAtom tkhdParse _).bind _ = _
    rw [hr]
    rfl
  · refine ⟨r.version, r.flags, ⟨?_, r.id.2⟩, r.reserved, ⟨?_, r.matrix.2⟩, ⟨?_, r.layer.2⟩, ⟨?_, r.volume.2⟩, ⟨?_, r.width.2⟩, ⟨?_, r.height.2⟩⟩
    · show h.trackID % 2 ^ 32 = _
      rw [r.id.1, Nat.mod_eq_of_lt r.id.2]
    · show keptMatrix h.matrix = _
      rw [r.matrix.1, keptMatrix_eq r.matrix.2]
    · show h.layer % 2 ^ 16 % 65536 = _
      rw [show (2 : Nat) ^ 16 = 65536 from rfl, Nat.mod_mod]
      exact r.layer.1
    · show h.volume % 2 ^ 16 % 65536 = _
      rw [show (2 : Nat) ^ 16 = 65536 from rfl, Nat.mod_mod]
      exact r.volume.1
    · show h.width % 2 ^ 32 = _
      have := r.width
      omega
    · show h.height % 2 ^ 32 = _
      have := r.height
      omega

/-- The headers hold what was set. -/
structure RepM (m : Movie) (s : Look) : Prop where
  version : m.mvhd.version = 0
  flags : m.mvhd.flags = 0
  reserved : m.mvhd.reserved.length = 10
  matrix : m.mvhd.matrix = s.matrix ∧ FitsMatrix s.matrix
  rate : m.mvhd.rate = s.rate ∧ s.rate < 2 ^ 32
  volume : m.mvhd.volume % 65536 = u32i s.volume % 65536 ∧ IsS16 s.volume
  time : m.mvhd.timeScale = s.timeScale ∧ s.timeScale < 2 ^ 32
  count : m.tracks.length = s.tracks.length
  tracks : ∀ (i : Nat) (h : Tkhd) (t : TrackLook), m.tracks[i]? = some h → s.tracks[i]? = some t → Rep h t

theorem RepM.answers {m : Movie} {s : Look} (r : RepM m s) : answers m = s := by
  have ht : m.tracks.map trackAnswers = s.tracks := by
    apply List.ext_getElem?
    intro i
    rw [List.getElem?_map]
    by_cases hi : i < m.tracks.length
    · have h1 : m.tracks[i]? = some m.tracks[i] := List.getElem?_eq_getElem hi
      have h2 : s.tracks[i]? = some (s.tracks[i]'(r.count ▸ hi)) := List.getElem?_eq_getElem _
      rw [h1, h2, Option.map_some, (r.tracks i _ _ h1 h2).answers]
    · rw [List.getElem?_eq_none (by omega), List.getElem?_eq_none (by rw [← r.count]; omega)]
      rfl
  unfold Display.answers getMovieMatrix getRate getMovieVolume getTimeScale
  rw [s16_of r.volume.1 r.volume.2, r.matrix.1, r.rate.1, r.time.1, ht]

theorem rereadAll_run : ∀ (l : List Tkhd) (ts : List TrackLook), l.length = ts.length →
    (∀ (i : Nat) (h : Tkhd) (t : TrackLook), l[i]? = some h → ts[i]? = some t → Rep h t) →
    ∃ l', rereadAll l = .ok l' ∧ l'.length = ts.length ∧ ∀ (i : Nat) (h : Tkhd) (t : TrackLook), l'[i]? = some h → ts[i]? = some t → Rep h t := by
  intro l
  induction l with
  | nil =>
    intro ts hl _
    exact ⟨[], rfl, hl, fun i h t e => by simp at e⟩
  | cons h l ih =>
    intro ts hl hr
    cases ts with
    | nil => simp at hl
    | cons t ts =>
      obtain ⟨h', e1, r1⟩ := (hr 0 h t rfl rfl).reread
      obtain ⟨l', e2, hl', r2⟩ := ih ts (by simpa using hl) (fun i a b ha hb => hr (i + 1) a b (by simpa using ha) (by simpa using hb))
      refine ⟨h' :: l', ?_, by simp [hl'], ?_⟩
      · unfold rereadAll
        rw [e1]
        show (rereadAll l).bind _ = _
        rw [e2]
        rfl
      · intro i a b ha hb
        cases i with
        | zero =>
          rw [List.getElem?_cons_zero] at ha hb
          cases ha; cases hb
          exact r1
        | succ i =>
          rw [List.getElem?_cons_succ] at ha hb
          exact r2 i a b ha hb

theorem RepM.reopen {m : Movie} {s : Look} (r : RepM m s) : ∃ m', reopen m = .ok m' ∧ RepM m' s := by
  have hb := (c44_movie_header m.mvhd (by rw [r.version]; decide) (by rw [r.flags]; decide) r.reserved).1
  obtain ⟨hd, hr⟩ := hb.read []
  rw [List.append_nil] at hr
  obtain ⟨l', e2, hl, r2⟩ := rereadAll_run m.tracks s.tracks r.count r.tracks
  refine ⟨⟨keptMvhd m.mvhd, l'⟩, ?_, ?_⟩
  · have e1 : Display.reread (mvhdSize m.mvhd) (mvhdSerialize m.mvhd) mvhdParse = .ok (keptMvhd m.mvhd) := by
      unfold Display.reread
      rw [hb.write]
      show (parseAtom mvhdParse _).bind _ = _
      rw [hr]
      rfl
    unfold Display.reopen
    rw [e1]
    show (rereadAll m.tracks).bind _ = _
    rw [e2]
    rfl
  · refine ⟨r.version, r.flags, r.reserved, ⟨?_, r.matrix.2⟩, ⟨?_, r.rate.2⟩, ⟨?_, r.volume.2⟩, ⟨?_, r.time.2⟩, hl, r2⟩
    · show keptMatrix m.mvhd.matrix = _
      rw [r.matrix.1, keptMatrix_eq r.matrix.2]
    · show m.mvhd.rate % 2 ^ 32 = _
      rw [r.rate.1, Nat.mod_eq_of_lt r.rate.2]
    · show m.mvhd.volume % 2 ^ 16 % 65536 = _
      rw [show (2 : Nat) ^ 16 = 65536 from rfl, Nat.mod_mod]
      exact r.volume.1
    · show m.mvhd.timeScale % 2 ^ 32 = _
      rw [r.time.1, Nat.mod_eq_of_lt r.time.2]

theorem RepM.step {m : Movie} {s : Look} (r : RepM m s) {c : Call} (hc : c.Fits m.tracks.length) :
    ∃ m', call m c = .ok m' ∧ RepM m' (s.step c) ∧ m'.tracks.length = match c with
      | .newTrack .. => m.tracks.length + 1
      | _ => m.tracks.length := by
  cases c with
  | newTrack kind id now =>
    refine ⟨_, rfl, ⟨r.version, r.flags, r.reserved, r.matrix, r.rate, r.volume, r.time, ?_, ?_⟩, by simp⟩
    · simp [Look.step, r.count]
    · intro i h t hi ht
      have hi : (m.tracks ++ [newTrack kind id now])[i]? = some h := hi
      have ht : (s.tracks ++ [TrackLook.new (kind.testBit 1) (kind.testBit 2) id])[i]? = some t := ht
      by_cases hl : i < m.tracks.length
      · rw [List.getElem?_append_left hl] at hi
        rw [List.getElem?_append_left (r.count ▸ hl)] at ht
        exact r.tracks i h t hi ht
      · rw [List.getElem?_append_right (by omega)] at hi
        rw [List.getElem?_append_right (by rw [← r.count]; omega), ← r.count] at ht
        cases hk : i - m.tracks.length with
        | zero =>
          rw [hk] at hi ht
          cases hi; cases ht
          exact rep_new kind id now hc
        | succ k => rw [hk] at hi; simp at hi
  | track i c =>
    obtain ⟨h1, h2⟩ := hc
    have e1 : m.tracks[i]? = some m.tracks[i] := List.getElem?_eq_getElem h1
    refine ⟨{ m with tracks := m.tracks.set i (setTrack m.tracks[i] c) }, ?_, ?_, by simp⟩
    · unfold call
      simp only [e1]
    · refine ⟨r.version, r.flags, r.reserved, r.matrix, r.rate, r.volume, r.time, ?_, ?_⟩
      · simp [Look.step, r.count]
      · intro j h t hj ht
        have hj : (m.tracks.set i (setTrack m.tracks[i] c))[j]? = some h := hj
        have ht : (s.tracks.modify i (·.set c))[j]? = some t := ht
        rw [List.getElem?_modify] at ht
        by_cases hij : i = j
        · subst hij
          rw [List.getElem?_set_self h1] at hj
          cases hj
          have e2 : s.tracks[i]? = some (s.tracks[i]'(r.count ▸ h1)) := List.getElem?_eq_getElem _
          rw [e2] at ht
          simp only [if_true, Option.map_eq_map, Option.map_some, Option.some.injEq] at ht
          subst ht
          exact (r.tracks i _ _ e1 e2).set h2
        · rw [List.getElem?_set_ne hij] at hj
          have ht : s.tracks[j]? = some t := by
            cases hs : s.tracks[j]? with
            | none => rw [hs] at ht; cases ht
            | some u =>
              rw [hs] at ht
              simpa [hij] using ht
          exact r.tracks j h t hj ht
  | matrix x =>
    refine ⟨_, rfl, ⟨r.version, r.flags, r.reserved, ?_, r.rate, r.volume, r.time, r.count, r.tracks⟩, rfl⟩
    show x.getD identity = x.getD unit ∧ FitsMatrix (x.getD unit)
    rw [identity_unit]
    cases x with
    | none => exact ⟨rfl, unit_fits⟩
    | some y => exact ⟨rfl, hc y rfl⟩
  | rate v => exact ⟨_, rfl, ⟨r.version, r.flags, r.reserved, r.matrix, ⟨rfl, hc⟩, r.volume, r.time, r.count, r.tracks⟩, rfl⟩
  | volume v =>
    refine ⟨_, rfl, ⟨r.version, r.flags, r.reserved, r.matrix, r.rate, ?_, r.time, r.count, r.tracks⟩, rfl⟩
    show u32i v % 65536 = u32i v % 65536 ∧ IsS16 v
    exact ⟨rfl, hc⟩
  | timeScale t =>
    by_cases h0 : t = 0
    · refine ⟨m, if_pos h0, ?_, rfl⟩
      unfold Look.step
      simp only
      rw [if_pos h0]
      exact r
    · refine ⟨_, if_neg h0, ⟨r.version, r.flags, r.reserved, r.matrix, r.rate, r.volume, ?_, r.count, r.tracks⟩, rfl⟩
      show t = (if t = 0 then s.timeScale else t) ∧ (if t = 0 then s.timeScale else t) < 2 ^ 32
      rw [if_neg h0]
      exact ⟨rfl, hc⟩
  | reopen =>
    obtain ⟨m', e, r'⟩ := r.reopen
    exact ⟨m', e, r', by show m'.tracks.length = m.tracks.length; rw [r'.count, r.count]⟩

theorem repM_new (now : Nat) : RepM (newMovie now) Look.new :=
  ⟨rfl, rfl, rfl, ⟨identity_unit, unit_fits⟩, ⟨rfl, by decide⟩, ⟨rfl, by show IsS16 256; unfold IsS16; decide⟩, ⟨rfl, by decide⟩, rfl,
    fun i h t e => by simp [newMovie] at e⟩

theorem run_rep : ∀ (calls : List Call) (m : Movie) (s : Look), RepM m s → AllFit m.tracks.length calls →
    ∃ m', runAll call m calls = .ok m' ∧ RepM m' (calls.foldl Look.step s) := by
  intro calls
  induction calls with
  | nil => intro m s r _; exact ⟨m, rfl, r⟩
  | cons c l ih =>
    intro m s r h
    obtain ⟨m1, e1, r1, n1⟩ := r.step h.1
    obtain ⟨m2, e2, r2⟩ := ih m1 (s.step c) r1 (by
      have := h.2
      rw [n1]
      cases c <;> exact this)
    refine ⟨m2, ?_, r2⟩
    unfold runAll
    rw [e1]
    exact e2

/-- **C100.** After any calls, in any order, with the movie written and read any number of times in between: all answers are what was set last, for
the movie and for each track, or what they are in a new movie and a new track. -/
theorem c100_last_set_partial (now : Nat) (calls : List Call) (h : AllFit 0 calls) :
    ∃ m, runAll call (newMovie now) calls = .ok m ∧ answers m = calls.foldl Look.step Look.new := by
  obtain ⟨m, e, r⟩ := run_rep calls (newMovie now) Look.new (repM_new now) h
  exact ⟨m, e, r.answers⟩

/-- Without the bound: a width or height of 2^16 or more is never what is answered, for any track. -/
theorem c100_not_wide (h : Tkhd) (w ht : Nat) (hw : 65536 ≤ w) : (getDimensions (setTrack h (.dimensions w ht))).1 ≠ w := by
  show w32(w <<< 16) >>> 16 ≠ w
  rw [Nat.shiftLeft_eq, Nat.shiftRight_eq_div_pow, show (2 : Nat) ^ 16 = 65536 from rfl]
  omega

theorem c100_not_high (h : Tkhd) (w ht : Nat) (hw : 65536 ≤ ht) : (getDimensions (setTrack h (.dimensions w ht))).2 ≠ ht := by
  show w32(ht <<< 16) >>> 16 ≠ ht
  rw [Nat.shiftLeft_eq, Nat.shiftRight_eq_div_pow, show (2 : Nat) ^ 16 = 65536 from rfl]
  omega

/-- A size with a fraction, as other writers give, is answered without it. -/
theorem c100_fraction (h : Tkhd) (w f : Nat) (hf : f < 65536) (he : h.width = w * 65536 + f) : (getDimensions h).1 = w := by
  show h.width >>> 16 = w
  rw [he, Nat.shiftRight_eq_div_pow, show (2 : Nat) ^ 16 = 65536 from rfl]
  omega

/-! ## A concrete case -/

def filmCalls : List Call :=
  [.newTrack 2 1 5, .newTrack 4 2 6, .track 0 (.layer (-3)), .track 1 (.volume (-256)), .track 0 (.enabled 0), .rate 0x20000, .reopen,
    .track 0 (.dimensions 1920 1080), .track 1 (.enabled 0), .track 1 (.enabled 9), .timeScale 0, .volume 77, .track 1 (.matrix none),
    .matrix (some ⟨1, 2, 3, 4, 5, 6, 7, 8, 4294967295⟩), .reopen]

example : AllFit 0 filmCalls := by
  have hm : ∀ x, some (⟨1, 2, 3, 4, 5, 6, 7, 8, 4294967295⟩ : Matrix) = some x → FitsMatrix x := by
    intro x hx; cases hx; unfold FitsMatrix; decide
  simp only [filmCalls, AllFit, Call.Fits, TrackCall.Fits, IsS16]
  refine ⟨by decide, by decide, by decide, by decide, by decide, by decide, trivial, by decide, by decide, by decide, by decide, by decide,
    ⟨by decide, nofun⟩, hm, trivial, trivial⟩

example : filmCalls.foldl Look.step Look.new =
    ⟨⟨1, 2, 3, 4, 5, 6, 7, 8, 4294967295⟩, 0x20000, 77, 600,
      [⟨1, false, unit, -3, 1920, 1080, 0⟩, ⟨2, true, unit, 0, 0, 0, -256⟩]⟩ := by decide

end Verif.Display
