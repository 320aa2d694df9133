import Verif.Lemmas.Iods
import Verif.Props.C75

/-!
# C76: a movie's initial object descriptor says what was put in it
-/

namespace Verif.Od

open Verif.Descr

/-! ## Asking -/

/-- Asking for the initial object descriptor gives it with the descriptions of the streams in place
of the track IDs, and leaves it as it was. -/
theorem c76_descriptor {v : Mov} {sl : Option Sl} {f : Nat → Es} {d : Iod} (hd : IodOk d) (ht : d.tag = 0x10) (he : d.es = [])
    (hf : ∀ id ∈ d.inc, Shows v sl id (f id) ∧ EsOk (f id)) (hl : (iodBytes (openIod f d)).length < 2 ^ 28) :
    movieDescriptor v sl (some ⟨.iod d, false⟩) = (some ⟨.iod d, false⟩, .ok (iodBytes (openIod f d))) := by
  unfold movieDescriptor
  simp only [Any.tagOf, ht]
  rw [if_neg (by decide), uncovered_iod_gives hd hf hl]
  have : ({ d with tag := 0x10, es := [] } : Iod) = d := by cases d; simp only at ht he; subst ht he; rfl
  simp only [this]

/-- The same for a file to be exchanged, with an object descriptor, as long as it was not written
and read again; see `c76_exchange_reopened`. -/
theorem c76_exchange_partial {v : Mov} {sl : Option Sl} {f : Nat → Es} {d : Od} (hd : OdOk d) (ht : d.tag = 0x11) (he : d.es = [])
    (hr : d.ref = []) (hf : ∀ id ∈ d.inc, Shows v sl id (f id) ∧ EsOk (f id)) (hl : (odBytes (openOd f d)).length < 2 ^ 28) :
    movieDescriptor v sl (some ⟨.od d, false⟩) = (some ⟨.od d, false⟩, .ok (odBytes (openOd f d))) := by
  unfold movieDescriptor
  simp only [Any.tagOf, ht]
  rw [if_pos trivial, if_neg (not_not_intro hr), uncovered_od_gives hd hf hl]
  have : ({ d with tag := 0x11, es := [] } : Od) = d := by cases d; simp only at ht he; subst ht he; rfl
  simp only [this]

/-! ## From creation on -/

theorem grown_wanted (id : Nat) (p : Profiles) (ops : List Op) :
    grown ⟨0x10, id, 0, [], p, [], [], [], [], []⟩ ops = wanted id p ops := by
  unfold grown wanted flagOf
  simp only [List.nil_append]
  rfl

/-- After creation and any steps, the descriptor holds the tracks in the order they were added, the
flag set last, the profiles of creation and the descriptors that may be added; nothing else. -/
theorem c76_session {id : Nat} {p : Profiles} {ops : List Op} {s0 s : Option Iods} (hid : id ≠ 0)
    (ho : ∀ i, Op.desc i ∈ ops → ItemOk i ∧ (itemBytes i).length < 2 ^ 28)
    (h0 : newMovie id p [] false = .ok s0) (h : steps ops s0 = .ok s) : s = some ⟨.iod (wanted id p ops), false⟩ := by
  have : newMovie id p [] false = .ok (some ⟨.iod ⟨0x10, id, 0, [], p, [], [], [], [], []⟩, false⟩) := by
    unfold newMovie
    rw [if_neg hid, if_neg (not_not_intro rfl), if_neg (by decide)]
  rw [this] at h0
  cases h0
  rw [steps_gives ho rfl rfl h, grown_wanted]

/-- What an application reads from it. -/
theorem c76_read {id : Nat} {p : Profiles} (ops : List Op)
    (hp : p.od < 2 ^ 8 ∧ p.scene < 2 ^ 8 ∧ p.audio < 2 ^ 8 ∧ p.visual < 2 ^ 8 ∧ p.graphics < 2 ^ 8) :
    movieProfiles (some ⟨.iod (wanted id p ops), false⟩) = .ok (some p) ∧
    getInline (some ⟨.iod (wanted id p ops), false⟩) = .ok (some (if flagOf ops = 0 then 0 else 1)) ∧
    createDescriptors (some ⟨.iod (wanted id p ops), false⟩) = .ok () := by
  obtain ⟨h1, h2, h3, h4, h5⟩ := hp
  refine ⟨?_, ?_, rfl⟩
  · have : movieProfiles (some ⟨.iod (wanted id p ops), false⟩) =
        .ok (some ⟨w8(p.od), w8(p.scene), w8(p.audio), w8(p.visual), w8(p.graphics)⟩) := rfl
    rw [this, Nat.mod_eq_of_lt h1, Nat.mod_eq_of_lt h2, Nat.mod_eq_of_lt h3, Nat.mod_eq_of_lt h4, Nat.mod_eq_of_lt h5]
  · have : getInline (some ⟨.iod (wanted id p ops), false⟩) = .ok (some (if flagOf ops ≠ 0 then 1 else 0)) := rfl
    rw [this]
    by_cases h : flagOf ops = 0 <;> simp [h]

/-- Steps that add tracks and set the flag always succeed. -/
theorem c76_tracks_added {d : Iod} {ops : List Op} (ht : d.tag = 0x10)
    (ho : ∀ o ∈ ops, (∃ id, o = .track id) ∨ (∃ f, o = .inline f)) :
    ∃ s, steps ops (some ⟨.iod d, false⟩) = .ok s := by
  induction ops generalizing d with
  | nil => exact ⟨_, rfl⟩
  | cons o ops ih =>
    unfold steps
    rcases ho o (by simp) with ⟨id, rfl⟩ | ⟨f, rfl⟩
    · exact ih (d := { d with inc := d.inc ++ [id] }) ht fun o h => ho o (by simp [h])
    · have : step (.inline f) (some ⟨.iod d, false⟩) =
          .ok (some ⟨.iod { d with inline := if f ≠ 0 then 1 else 0 }, false⟩) := by
        unfold step setInline Any.tagOf
        simp only [ht]
        rw [if_neg (by decide)]
      rw [this, bind_ok]
      exact ih (d := { d with inline := if f ≠ 0 then 1 else 0 }) ht fun o h => ho o (by simp [h])

theorem wanted_mem {id : Nat} {p : Profiles} {ops : List Op} {i : Item} (hi : i ∈ (wanted id p ops).items) :
    (∃ t ∈ tracksOf ops, i = .inc t) ∨ (i ∈ extrasOf ops ∧ Extra i) := by
  have hx : ∀ i ∈ extrasOf ops, Extra i := by
    intro i hi
    obtain ⟨o, _, h⟩ := List.mem_filterMap.1 hi
    cases o with
    | desc j =>
      simp only at h
      by_cases hj : Extra j
      · rw [if_pos hj] at h; cases h; exact hj
      · rw [if_neg hj] at h; cases h
    | _ => cases h
  simp only [wanted, Iod.items, List.map_nil, List.nil_append, List.mem_append, List.mem_map] at hi
  rcases hi with ⟨t, ht, rfl⟩ | ⟨q, hq, rfl⟩ | hi
  · exact .inl ⟨t, ht, rfl⟩
  · obtain ⟨j, hj, h⟩ := List.mem_filterMap.1 hq
    cases j with
    | child c =>
      cases c with
      | ptr r => cases h; exact .inr ⟨hj, trivial⟩
      | _ => cases h
    | _ => cases h
  · have := (List.mem_filter.1 hi).1
    exact .inr ⟨this, hx i this⟩

theorem wanted_ok {id : Nat} {p : Profiles} {ops : List Op} (hid : id < 2 ^ 10)
    (hp : p.od < 2 ^ 8 ∧ p.scene < 2 ^ 8 ∧ p.audio < 2 ^ 8 ∧ p.visual < 2 ^ 8 ∧ p.graphics < 2 ^ 8)
    (ht : ∀ t ∈ tracksOf ops, t < 2 ^ 32)
    (ho : ∀ i, Op.desc i ∈ ops → ItemOk i) (hc : ∀ x, Op.desc (.child (.plain x)) ∈ ops → ¬ Oci x.tag) :
    IodOk (wanted id p ops) := by
  have hm : ∀ i ∈ extrasOf ops, Op.desc i ∈ ops := by
    intro i hi
    obtain ⟨o, hm, h⟩ := List.mem_filterMap.1 hi
    cases o with
    | desc j =>
      simp only at h
      by_cases hj : Extra j
      · rw [if_pos hj] at h; cases h; exact hm
      · rw [if_neg hj] at h; cases h
    | _ => cases h
  have hfl : ∀ (l : List Op) (n : Nat), n < 2 →
      l.foldl (fun n => fun | .inline f => if f = 0 then 0 else 1 | _ => n) n < 2 := by
    intro l
    induction l with
    | nil => intro n h; exact h
    | cons o l ih =>
      intro n h
      rw [List.foldl_cons]
      refine ih _ ?_
      cases o with
      | inline f => simp only; split <;> decide
      | _ => exact h
  refine ⟨.inr rfl, hid, hfl ops 0 (by decide), (by show ([] : Bytes).length < _; decide), hp, ?_, (by intro x hx; cases hx), ?_⟩
  · intro i hi
    rcases wanted_mem hi with ⟨t, h, rfl⟩ | ⟨h, _⟩
    · exact ht t h
    · exact ho i (hm i h)
  · intro i hi
    obtain ⟨h1, h2⟩ := List.mem_filter.1 hi
    have hd := hm i h1
    have hx : Extra i := by
      rcases wanted_mem (id := id) (p := p) (i := i) (ops := ops) (by simp [wanted, Iod.items]; exact .inr (.inr ⟨h1, by simpa using h2⟩)) with ⟨t, _, rfl⟩ | ⟨_, h⟩
      · obtain ⟨o, _, h⟩ := List.mem_filterMap.1 h1
        cases o with
        | desc j =>
          simp only at h
          by_cases hj : Extra j
          · rw [if_pos hj] at h; cases h; exact hj
          · rw [if_neg hj] at h; cases h
        | _ => cases h
      · exact h
    cases i with
    | child c =>
      cases c with
      | ptr q => simp at h2
      | plain x => exact hc x hd
      | dec _ => exact absurd hx fun h => h
      | sl _ => exact absurd hx fun h => h
    | es _ => exact absurd hx fun h => h
    | inc _ => exact absurd hx fun h => h
    | ref _ => exact absurd hx fun h => h

/-- From creation to what is given: the descriptor with the streams described, also from the file
that was written and read again. -/
theorem c76_whole {id : Nat} {p : Profiles} {ops : List Op} {s0 s : Option Iods} {v : Mov} {sl : Option Sl} {f : Nat → Es}
    (version flags : Nat) (hv : version < 256) (hfl : flags < 2 ^ 24)
    (hid : id ≠ 0) (hid' : id < 2 ^ 10)
    (hp : p.od < 2 ^ 8 ∧ p.scene < 2 ^ 8 ∧ p.audio < 2 ^ 8 ∧ p.visual < 2 ^ 8 ∧ p.graphics < 2 ^ 8)
    (ht : ∀ t ∈ tracksOf ops, t < 2 ^ 32)
    (ho : ∀ i, Op.desc i ∈ ops → ItemOk i ∧ (itemBytes i).length < 2 ^ 28)
    (hc : ∀ x, Op.desc (.child (.plain x)) ∈ ops → ¬ Oci x.tag)
    (h0 : newMovie id p [] false = .ok s0) (h : steps ops s0 = .ok s)
    (hf : ∀ t ∈ tracksOf ops, Shows v sl t (f t) ∧ EsOk (f t))
    (hl : (iodBytes (openIod f (wanted id p ops))).length < 2 ^ 28) (hl' : (iodBytes (wanted id p ops)).length < 2 ^ 28) :
    movieDescriptor v sl s = (s, .ok (iodBytes (openIod f (wanted id p ops)))) ∧
    ∃ a, s = some ⟨a, false⟩ ∧
      BoxRoundTrip (iodsSize (some a)) (iodsSerialize version flags (some a)) iodsParse ((version, flags), some a)
        (fullBox (fcc 'i' 'o' 'd' 's') version flags (iodBytes (wanted id p ops))) := by
  have hs := c76_session hid ho h0 h
  have hok := wanted_ok hid' hp ht (fun i hi => (ho i hi).1) hc
  subst hs
  refine ⟨c76_descriptor hok rfl rfl hf hl, _, rfl, ?_⟩
  exact c74_iods_box version flags (a := .iod (wanted id p ops)) hv hfl hok hl'

/-! ## Cases -/

/-- A session: two tracks, a question, a flag, a descriptor, and one that is refused. -/
def made : List Op :=
  [.track 1, .ask (tracks [1, 2]) none, .inline 5, .desc (.child (.plain ⟨0xC0, [7]⟩)), .track 2, .desc (.inc 9),
    .desc (.child (.ptr ⟨1, 0, 0⟩))]

theorem made_desc : ∀ i, Op.desc i ∈ made → ItemOk i ∧ (itemBytes i).length < 2 ^ 28 := by
  intro i hi
  have : i = .child (.plain ⟨0xC0, [7]⟩) ∨ i = .inc 9 ∨ i = .child (.ptr ⟨1, 0, 0⟩) := by
    simp only [made, List.mem_cons, List.not_mem_nil, or_false, reduceCtorEq, false_or, Op.desc.injEq] at hi
    rcases hi with h | h | h
    · exact .inl h
    · exact .inr (.inl h)
    · exact .inr (.inr h)
  rcases this with rfl | rfl | rfl
  · exact ⟨⟨by decide, by decide⟩, by decide +kernel⟩
  · exact ⟨show (9 : Nat) < 2 ^ 32 by decide, by decide +kernel⟩
  · exact ⟨⟨by decide, by decide, by decide⟩, by decide +kernel⟩

def levels : Profiles := ⟨0xFF, 0xFE, 0x29, 1, 0xFF⟩

theorem made_runs : ∃ s0 s, newMovie 1 levels [] false = .ok s0 ∧ steps made s0 = .ok s :=
  ⟨_, some ⟨.iod (wanted 1 levels made), false⟩, rfl, by
    have : (match steps made (some ⟨.iod ⟨0x10, 1, 0, [], levels, [], [], [], [], []⟩, false⟩) with | .ok s => some s | _ => none) =
      some (some ⟨.iod (wanted 1 levels made), false⟩) := by decide +kernel
    revert this
    cases steps made (some ⟨.iod ⟨0x10, 1, 0, [], levels, [], [], [], [], []⟩, false⟩) with
    | ok s => intro h; simp only [Option.some.injEq] at h; rw [h]
    | _ => intro h; cases h⟩

example : wanted 1 levels made = ⟨0x10, 1, 1, [], levels, [], [1, 2], [], [⟨1, 0, 0⟩], [.child (.plain ⟨0xC0, [7]⟩)]⟩ := by
  decide +kernel

example : ∃ s0 s, newMovie 1 levels [] false = .ok s0 ∧ steps made s0 = .ok s ∧
    movieDescriptor (tracks [1, 2]) none s = (s, .ok (iodBytes (openIod seen (wanted 1 levels made)))) := by
  obtain ⟨s0, s, h0, h⟩ := made_runs
  refine ⟨s0, s, h0, h, (c76_whole 0 0 (by decide) (by decide) (by decide) (by decide) (by decide) (by decide +kernel) made_desc ?_ h0 h
    (fun t ht => ?_) (by decide +kernel) (by decide +kernel)).1⟩
  · intro x hx
    simp only [made, List.mem_cons, List.not_mem_nil, or_false, reduceCtorEq, false_or, Op.desc.injEq, Item.child.injEq,
      Child.plain.injEq] at hx
    rw [hx]
    unfold Oci
    decide
  · have : t = 1 ∨ t = 2 := by
      have : tracksOf made = [1, 2] := rfl
      rw [this] at ht
      simpa using ht
    rcases this with rfl | rfl
    · exact ⟨seen_shows (by decide), seen_ok (by decide)⟩
    · exact ⟨seen_shows (by decide), seen_ok (by decide)⟩

example := c76_read (id := 1) (p := levels) made (by decide)
example := c76_tracks_added (d := wanted 1 levels []) (ops := [.track 1, .inline 0, .track 7]) rfl (by
  intro o ho
  simp only [List.mem_cons, List.not_mem_nil, or_false] at ho
  rcases ho with rfl | rfl | rfl
  · exact .inl ⟨_, rfl⟩
  · exact .inr ⟨_, rfl⟩
  · exact .inl ⟨_, rfl⟩)

def exchanged : Od := ⟨0x11, 3, [], [], [1], [], [], [], []⟩

theorem exchanged_ok : OdOk exchanged where
  tag := .inr rfl
  id := by decide
  url := by decide
  items := by
    intro i hi
    simp only [exchanged, Od.items, List.map_nil, List.nil_append, List.append_nil, List.map_cons, List.mem_singleton] at hi
    subst hi
    exact show (1 : Nat) < 2 ^ 32 by decide
  oci := by intro i hi; cases hi
  ext := by intro i hi; cases hi

example := c76_exchange_partial (v := tracks [1, 2]) (sl := none) (f := seen) exchanged_ok rfl rfl rfl
  (fun id hi => by rw [List.mem_singleton.1 hi]; exact ⟨seen_shows (by decide), seen_ok (by decide)⟩) (by decide +kernel)

/-! ## What goes wrong -/

/-- Creating a movie with a URL writes behind the block for it. -/
theorem c76_url (id : Nat) (p : Profiles) (url : Bytes) (exchange : Bool) (hid : id ≠ 0) (h : url ≠ []) :
    newMovie id p url exchange = .ub := by
  unfold newMovie
  rw [if_neg hid, if_pos h]

/-- Without the box, the questions go through a null pointer. -/
theorem c76_no_box (p : Profiles) (url : Bytes) (exchange : Bool) :
    newMovie 0 p url exchange = .ok none ∧ getInline none = .ub ∧ setInline 1 none = .ub ∧ movieProfiles none = .ub :=
  ⟨rfl, rfl, rfl, rfl⟩

/-- When a track is missing, the streams before it stay in the descriptor: asked again, they are
given twice. -/
theorem c76_streams_stay :
    ∃ s, movieDescriptor (tracks [1]) none (some ⟨.iod { wanted 1 levels [] with inc := [1, 2] }, false⟩) =
        (some s, .err .badParam) ∧
      (movieDescriptor (tracks [1, 2]) none (some s)).2 =
        .ok (iodBytes { wanted 1 levels [] with tag := 0x02, es := [seen 1, seen 1, seen 2] }) := by
  refine ⟨⟨.iod { wanted 1 levels [] with
    inc := [1, 2], es := [{ number 1 with sl := some (slForFile 1000 44100) }] }, false⟩, ?_, ?_⟩
  · decide +kernel
  · decide +kernel

/-- A configuration without time stamps cannot be written: after that the descriptor has lost its
tracks, takes no more, and cannot be asked again. -/
theorem c76_broken_by_configuration :
    ∃ sl s e, movieDescriptor (tracks [1]) (some sl) (some ⟨.iod { wanted 1 levels [] with inc := [1] }, false⟩) = (some s, .err e) ∧
      addTrack 2 (some s) = .err .invalidMedia ∧
      movieDescriptor (tracks [1]) none (some s) = (some s, .err .badParam) ∧
      createDescriptors (some s) = .err .invalidMedia := by
  refine ⟨{ Sl.zero with timestamps := false }, ⟨.iod { wanted 1 levels [] with
    tag := 0x02, es := [{ number 1 with sl := some { Sl.zero with
      timestamps := false, tsResolution := 44100, ocrResolution := 1000, timeScale := 44100, auDuration := 44100,
      cuDuration := 44100 } }] }, true⟩, .notImplemented, ?_, rfl, rfl, rfl⟩
  decide +kernel

/-- An exchange file that was written and read again: its object descriptor is given with the tag of
an initial object descriptor; before that it cannot be written, and takes no descriptors; after that
the questions for profiles read beyond it. -/
theorem c76_exchange_reopened {v : Mov} {sl : Option Sl} (d : Od)
    {s : Option Iods} {bs : Bytes} (h : movieDescriptor v sl (some ⟨readAny (.od d), false⟩) = (s, .ok bs)) :
    createDescriptors (some ⟨readAny (.od d), false⟩) = .err .invalidMedia ∧
    getInline (some ⟨readAny (.od d), false⟩) = .ub ∧
    (∃ d' : Od, d'.tag = 0x02 ∧ runW (odSize d') (putOd d') = .ok bs) ∧
    movieProfiles s = .ub ∧ createDescriptors s = .ok () := by
  refine ⟨rfl, rfl, ?_⟩
  have hm : movieDescriptor v sl (some ⟨readAny (.od d), false⟩) =
      ((some (uncovered v sl 0x02 0x10 ⟨.od (readOd d), false⟩).1), (uncovered v sl 0x02 0x10 ⟨.od (readOd d), false⟩).2) := rfl
  rw [hm] at h
  rcases hu : uncovered v sl 0x02 0x10 ⟨.od (readOd d), false⟩ with ⟨s', r⟩
  rw [hu] at h
  simp only [Prod.mk.injEq] at h
  obtain ⟨rfl, rfl⟩ := h
  obtain ⟨l, rfl, hw⟩ := uncovered_od hu
  exact ⟨⟨_, rfl, hw⟩, rfl, rfl⟩

example := c76_url 1 levels [0x78] false (by decide) (by decide)
example : ∃ s bs, movieDescriptor (tracks [1]) none (some ⟨readAny (.od exchanged), false⟩) = (s, .ok bs) :=
  ⟨some ⟨.od { exchanged with tag := 0x10 }, false⟩, odBytes { exchanged with tag := 0x02, inc := [], es := [seen 1] }, by decide +kernel⟩

end Verif.Od
