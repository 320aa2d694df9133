import Verif.Spec.Defaults
import Verif.Props.C28
import Verif.Props.C68

/-!
# C99: defaults for the fragments of tracks

The samples of a fragment are written as differences from defaults. The writer goes by the defaults of the last call for the track, the reader
by the first box for the track in the file. So they agree if there is one call for each track, and not if there are two.
-/

namespace Verif.Defs

open Rows (Trex)

/-! ## The flags -/

theorem flagsOf_eq (isSync pad : Nat) : flagsOf isSync pad = pad % 8 * 2 ^ 17 + (if isSync = 0 then 2 ^ 16 else 0) := by
  unfold flagsOf
  have h7 : pad &&& 7 = pad % 8 := Nat.and_two_pow_sub_one_eq_mod pad 3
  rw [h7]
  have hl : pad % 8 < 8 := Nat.mod_lt _ (by decide)
  generalize pad % 8 = k at hl
  by_cases h : isSync = 0
  · rw [if_neg (by simpa using h), if_pos h]
    have : ∀ k < 8, (k <<< 17 ||| 0x10000) = k * 2 ^ 17 + 2 ^ 16 := by decide
    exact this k hl
  · rw [if_pos h, if_neg h]
    have : ∀ k < 8, (k <<< 17 ||| 0) = k * 2 ^ 17 + 0 := by decide
    exact this k hl

/-! ## The lists -/

def look (m : Movie) (id : Nat) : Track := (m.tracks.find? (fun t => t.id == id)).getD ⟨0, 0, 0⟩

def ext0 (c : Call) : Ext := ⟨⟨c.id, 0, c.duration, c.size, flagsOf c.isSync c.pad⟩, none⟩
def trex1 (m : Movie) (c : Call) : Trex := ⟨c.id, (look m c.id).desc, c.duration, c.size, flagsOf c.isSync c.pad⟩
def ext2 (m : Movie) (c : Call) : Ext := ⟨trex1 m c, some ((look m c.id).duration % 2 ^ 32)⟩

def box (m : Movie) (c : Call) : Bytes :=
  fullBox (fcc 't' 'r' 'e' 'x') 0 0 (be 4 (trex1 m c).track ++ (be 4 (trex1 m c).desc ++ (be 4 (trex1 m c).duration ++
    (be 4 (trex1 m c).size ++ (be 4 (trex1 m c).sampleFlags)))))

theorem calls_run : ∀ (calls : List Call) (m : Movie), m.moof = none → calls ≠ [] →
    runAll apply m calls = .ok { m with mvex := some (m.mvex.getD [] ++ calls.map ext0) } := by
  intro calls
  induction calls with
  | nil => intro m _ h; exact absurd rfl h
  | cons c l ih =>
    intro m hm _
    have h1 : apply m c = .ok { m with mvex := some (m.mvex.getD [] ++ [ext0 c]) } := by
      unfold apply setDefaults
      rw [hm]; rfl
    unfold runAll
    rw [h1]
    show runAll apply _ l = _
    cases l with
    | nil => rfl
    | cons d l =>
      rw [ih _ (by exact hm) (by simp)]
      simp

theorem find_unique : ∀ (l : List Track), (l.map (·.id)).Nodup → ∀ t ∈ l, l.find? (fun u => u.id == t.id) = some t := by
  intro l
  induction l with
  | nil => intro _ t ht; cases ht
  | cons a l ih =>
    intro hn t ht
    rw [List.map_cons, List.nodup_cons] at hn
    rw [List.find?_cons]
    by_cases h : a.id = t.id
    · rcases List.mem_cons.mp ht with rfl | hm
      · simp
      · exact absurd (h ▸ List.mem_map_of_mem hm) hn.1
    · have hb : (a.id == t.id) = false := by simpa using h
      rw [hb]
      rcases List.mem_cons.mp ht with rfl | hm
      · exact absurd rfl h
      · exact ih hn.2 t hm

theorem look_of {m : Movie} (hm : TracksFit m.tracks) {t : Track} (ht : t ∈ m.tracks) :
    look m t.id = t ∧ trackOf m t.id = .ok t := by
  have h := find_unique _ hm.different t ht
  unfold look trackOf
  have h0 : t.id ≠ 0 := Nat.ne_of_gt (hm.number t ht).1
  rw [if_neg h0, h]
  exact ⟨rfl, rfl⟩

theorem trackOf_call {m : Movie} (hm : TracksFit m.tracks) {c : Call} (hc : c.Fits m.tracks) :
    trackOf m c.id = .ok (look m c.id) ∧ look m c.id ∈ m.tracks ∧ c.id ≠ 0 ∧ c.id < 2 ^ 32 := by
  obtain ⟨t, ht, he⟩ := hc.track
  obtain ⟨h1, h2⟩ := look_of hm ht
  rw [← he, h1]
  exact ⟨h2, ht, Nat.ne_of_gt (hm.number t ht).1, (hm.number t ht).2⟩

theorem setIndexes_run {m : Movie} (hm : TracksFit m.tracks) : ∀ calls : List Call, (∀ c ∈ calls, c.Fits m.tracks) →
    setIndexes m (calls.map ext0) = .ok (calls.map fun c => ⟨trex1 m c, none⟩) := by
  intro calls
  induction calls with
  | nil => intro _; rfl
  | cons c l ih =>
    intro h
    have h1 := (trackOf_call hm (h c (by simp))).1
    simp only [List.map_cons]
    unfold setIndexes
    rw [show (ext0 c).trex.track = c.id from rfl, h1, Res.ok_bind, ih (fun d hd => h d (by simp [hd])), Res.ok_bind]
    rfl

theorem box_trip {m : Movie} (hm : TracksFit m.tracks) {c : Call} (hc : c.Fits m.tracks) :
    BoxRoundTrip 32 ((trex1 m c).serialize 0 0) Trex.parse ((0, 0), trex1 m c) (box m c) := by
  obtain ⟨_, h2, _, h4⟩ := trackOf_call hm hc
  refine Rows.c68_trex 0 0 (trex1 m c) (by decide) (by decide) h4 (hm.desc _ h2) hc.duration hc.size ?_
  show flagsOf c.isSync c.pad < 2 ^ 32
  rw [flagsOf_eq]
  have := Nat.mod_lt c.pad (show 0 < 8 by decide)
  split <;> omega

theorem writeAll_run {m : Movie} (hm : TracksFit m.tracks) : ∀ calls : List Call, (∀ c ∈ calls, c.Fits m.tracks) →
    writeAll (calls.map fun c => ⟨trex1 m c, none⟩) = .ok (calls.map (box m)) ∧
    readAll (calls.map (box m)) = .ok (calls.map (trex1 m)) := by
  intro calls
  induction calls with
  | nil => intro _; exact ⟨rfl, rfl⟩
  | cons c l ih =>
    intro h
    obtain ⟨i1, i2⟩ := ih (fun d hd => h d (by simp [hd]))
    have b := box_trip hm (h c (by simp))
    constructor
    · simp only [List.map_cons]
      unfold writeAll
      rw [b.write, Res.ok_bind, i1, Res.ok_bind]
    · obtain ⟨hd, hr⟩ := b.read []
      rw [List.append_nil] at hr
      simp only [List.map_cons]
      unfold readAll
      rw [hr, Res.ok_bind, i2, Res.ok_bind]

theorem makeTrafs_run {m : Movie} (hm : TracksFit m.tracks) : ∀ calls : List Call, (∀ c ∈ calls, c.Fits m.tracks) →
    makeTrafs m (calls.map fun c => ⟨trex1 m c, none⟩) = .ok (calls.map (ext2 m), calls.map fun c => makeTraf (ext2 m c)) := by
  intro calls
  induction calls with
  | nil => intro _; rfl
  | cons c l ih =>
    intro h
    have h1 : timed m ⟨trex1 m c, none⟩ = .ok (ext2 m c) := by
      unfold timed
      show (trackOf m c.id).bind _ = _
      rw [(trackOf_call hm (h c (by simp))).1]
      rfl
    simp only [List.map_cons]
    unfold makeTrafs
    rw [h1, Res.ok_bind, ih (fun d hd => h d (by simp [hd])), Res.ok_bind]

theorem session_run {m : Movie} {calls : List Call} (hm : TracksFit m.tracks) (h0 : m.mvex = none) (h1 : m.moof = none)
    (hne : calls ≠ []) (h : ∀ c ∈ calls, c.Fits m.tracks) :
    session m calls = .ok
      { m with
        mvex := some (calls.map (ext2 m))
        moof := some (calls.map fun c => makeTraf (ext2 m c))
        file := calls.map (box m) } := by
  unfold session
  rw [calls_run calls m h1 hne]
  show start { m with mvex := some (m.mvex.getD [] ++ calls.map ext0) } = _
  unfold start
  simp only [h0, Option.getD_none, List.nil_append]
  have e1 : setIndexes { m with mvex := some (calls.map ext0) } (calls.map ext0) = _ :=
    setIndexes_run (m := { m with mvex := some (calls.map ext0) }) hm calls h
  have e2 := (writeAll_run (m := { m with mvex := some (calls.map ext0) }) hm calls h).1
  have e3 := makeTrafs_run (m := { m with mvex := some (calls.map ext0) }) hm calls h
  rw [e1, Res.ok_bind, e2, Res.ok_bind, e3, Res.ok_bind]
  rfl

theorem found_run {m : Movie} {calls : List Call} {id : Nat} (hid : id ≠ 0) {c : Call}
    (hc : calls.find? (fun c => c.id == id) = some c) :
    found (calls.map (trex1 m)) id = .ok ⟨(look m c.id).desc, c.duration, c.size, flagsOf c.isSync c.pad⟩ := by
  unfold found
  rw [if_neg hid, List.find?_map]
  have : ((fun x : Trex => x.track == id) ∘ trex1 m) = fun c : Call => c.id == id := rfl
  rw [this, hc]
  rfl

theorem current_run {m m' : Movie} {calls : List Call} {id : Nat} {c : Call}
    (hm : m'.moof = some (calls.map fun c => makeTraf (ext2 m c)))
    (hc : calls.reverse.find? (fun c => c.id == id) = some c) : current m' id = some (makeTraf (ext2 m c)) := by
  unfold current
  rw [hm, Option.getD_some, ← List.map_reverse, List.find?_map]
  have : ((fun t : Traf.Traf => t.tfhd.trackId == id) ∘ fun c => makeTraf (ext2 m c)) = fun c : Call => c.id == id := rfl
  rw [this, hc]
  rfl

/-! ## The theorems -/

/-- With any calls for the tracks of a movie, several for a track or not: the fragment is started, the boxes can be read, the reader finds the
defaults of the first call for a track, and samples go to a fragment with the defaults of the last one. -/
theorem c99_first_last {m : Movie} {calls : List Call} (hm : TracksFit m.tracks) (h0 : m.mvex = none) (h1 : m.moof = none)
    (hne : calls ≠ []) (h : ∀ c ∈ calls, c.Fits m.tracks) :
    ∃ m' l, session m calls = .ok m' ∧ readAll m'.file = .ok l ∧ m'.tracks = m.tracks ∧
      (∃ fs, m'.moof = some fs ∧ fs.map (·.tfhd.trackId) = calls.map (·.id)) ∧
      ∀ t ∈ m.tracks, ∀ first last : Call,
        calls.find? (fun c => c.id == t.id) = some first → calls.reverse.find? (fun c => c.id == t.id) = some last →
        found l t.id = .ok (first.trex t) ∧
        ∃ f, current m' t.id = some f ∧ f.trex = last.trex t ∧ f.tfhd.trackId = t.id ∧ f.tfhd.descIndex = t.desc ∧
          f.tfdt = some ⟨0, 0, t.duration % 2 ^ 32⟩ ∧ f.runs = [] := by
  refine ⟨_, _, session_run hm h0 h1 hne h, (writeAll_run hm calls h).2, rfl, ⟨_, rfl, ?_⟩, ?_⟩
  · rw [List.map_map]; rfl
  · intro t ht first last hf hl
    have ef : first.id = t.id := by simpa using List.find?_some hf
    have el : last.id = t.id := by simpa using List.find?_some hl
    have hk := (look_of hm ht).1
    refine ⟨?_, _, current_run rfl hl, ?_, ?_, ?_, ?_, rfl⟩
    · rw [found_run (Nat.ne_of_gt (hm.number t ht).1) hf, ef, hk, flagsOf_eq]
      rfl
    · show (⟨(look m last.id).desc, last.duration, last.size, flagsOf last.isSync last.pad⟩ : Traf.Trex) = _
      rw [el, hk, flagsOf_eq]
      rfl
    · exact el
    · show (look m last.id).desc = _
      rw [el, hk]
    · show some (⟨0, 0, (look m last.id).duration % 2 ^ 32⟩ : Traf.Tfdt) = _
      rw [el, hk]

theorem find_call : ∀ (l : List Call), (l.map (·.id)).Nodup → ∀ t ∈ l, l.find? (fun u => u.id == t.id) = some t := by
  intro l
  induction l with
  | nil => intro _ t ht; cases ht
  | cons a l ih =>
    intro hn t ht
    rw [List.map_cons, List.nodup_cons] at hn
    rw [List.find?_cons]
    by_cases h : a.id = t.id
    · rcases List.mem_cons.mp ht with rfl | hm
      · simp
      · exact absurd (h ▸ List.mem_map_of_mem hm) hn.1
    · have hb : (a.id == t.id) = false := by simpa using h
      rw [hb]
      rcases List.mem_cons.mp ht with rfl | hm
      · exact absurd rfl h
      · exact ih hn.2 t hm

/-- With at most one call for each track, the defaults of the reader are those of the writer: what the call said, and the current sample
description of the track. -/
theorem c99_same_partial {m : Movie} {calls : List Call} (hm : TracksFit m.tracks) (h0 : m.mvex = none) (h1 : m.moof = none)
    (hne : calls ≠ []) (h : ∀ c ∈ calls, c.Fits m.tracks) (hn : (calls.map (·.id)).Nodup) :
    ∃ m' l, session m calls = .ok m' ∧ readAll m'.file = .ok l ∧
      ∀ c ∈ calls, ∀ t ∈ m.tracks, c.id = t.id → found l t.id = .ok (c.trex t) ∧
        ∃ f, current m' t.id = some f ∧ f.trex = c.trex t ∧ f.tfhd.trackId = t.id ∧ f.tfhd.descIndex = t.desc ∧
          f.tfdt = some ⟨0, 0, t.duration % 2 ^ 32⟩ ∧ f.runs = [] := by
  obtain ⟨m', l, e1, e2, _, _, e3⟩ := c99_first_last hm h0 h1 hne h
  refine ⟨m', l, e1, e2, fun c hc t ht he => ?_⟩
  have hr : (calls.reverse.map (·.id)).Nodup := by
    rw [List.map_reverse]
    exact List.pairwise_reverse.mpr (hn.imp fun h => h.symm)
  exact e3 t ht c c (he ▸ find_call calls hn c hc) (he ▸ find_call calls.reverse hr c (List.mem_reverse.mpr hc))

/-- So any samples put into the fragment of a track are read as they were. -/
theorem c99_samples_partial {m : Movie} {calls : List Call} (hm : TracksFit m.tracks) (h0 : m.mvex = none) (h1 : m.moof = none)
    (hne : calls ≠ []) (h : ∀ c ∈ calls, c.Fits m.tracks) (hn : (calls.map (·.id)).Nodup) :
    ∃ m' l, session m calls = .ok m' ∧ readAll m'.file = .ok l ∧
      ∀ c ∈ calls, ∃ f x, current m' c.id = some f ∧ found l c.id = .ok x ∧
        ∀ base runs, Traf.Fits (put f base runs) → ∃ bs, Traf.write (put f base runs) = .ok bs ∧
          ∀ rest, ∃ f' hd, parseAtom Traf.parse (bs ++ rest) = .ok (f', hd, rest) ∧
            ∀ moof prevEnd, Traf.samples x moof prevEnd f' = .ok (Traf.content (put f base runs)) := by
  obtain ⟨m', l, e1, e2, e3⟩ := c99_same_partial hm h0 h1 hne h hn
  refine ⟨m', l, e1, e2, fun c hc => ?_⟩
  obtain ⟨t, ht, he⟩ := (h c hc).track
  obtain ⟨hf, f, hcur, hx, _⟩ := e3 c hc t ht he.symm
  refine ⟨f, _, he ▸ hcur, he ▸ hf, fun base runs hfit => ?_⟩
  obtain ⟨bs, hw, hr⟩ := Traf.c28_defaults_preserved _ hfit
  refine ⟨bs, hw, fun rest => ?_⟩
  obtain ⟨f', _, hd, hp, hs, _⟩ := hr rest
  refine ⟨f', hd, hp, fun moof prevEnd => ?_⟩
  rw [← hx]
  exact hs moof prevEnd

/-! ## Two calls for a track -/

def two : Movie := ⟨[⟨1, 1, 0⟩], none, none, []⟩
def twoCalls : List Call := [⟨1, 1000, 0, 1, 0⟩, ⟨1, 512, 0, 1, 0⟩]
def twoRuns : List Traf.Run := [⟨0, 0, 0, 0, [⟨512, 7, 0, 0⟩, ⟨512, 9, 0, 0⟩]⟩]

/-- The durations of the samples of the track 1 as they are read from the file. -/
def readDurations : Res (List Nat) := do
  let m ← session two twoCalls
  let l ← readAll m.file
  match current m 1 with
  | none => .ub
  | some f => do
    let bs ← Traf.write (put f 100 twoRuns)
    let r ← parseAtom Traf.parse bs
    let x ← found l 1
    let s ← Traf.samples x 0 0 r.1
    .ok (s.flatMap fun p => p.2.map (·.duration))

/-- Two calls for a track: there are two fragments for the track, and samples of the duration 512 are read with the duration 1000. -/
theorem c99_not_twice : (∀ c ∈ twoCalls, c.Fits two.tracks) ∧ readDurations = .ok [1000, 1000] ∧
    (twoRuns.flatMap fun r => r.entries.map (·.duration)) = [512, 512] ∧
    ∃ m', session two twoCalls = .ok m' ∧ (m'.moof.map fun l => l.map (·.tfhd.trackId)) = some [1, 1] := by
  have hf : ∀ c ∈ twoCalls, c.Fits two.tracks := by
    intro c hc
    simp only [twoCalls, List.mem_cons, List.not_mem_nil, or_false] at hc
    rcases hc with rfl | rfl <;> exact ⟨⟨⟨1, 1, 0⟩, by simp [two], rfl⟩, by decide, by decide⟩
  have ht : TracksFit two.tracks := by
    refine ⟨by decide, ?_, ?_⟩ <;> intro t ht <;> simp only [two, List.mem_cons, List.not_mem_nil, or_false] at ht <;> subst ht <;>
      decide
  refine ⟨hf, by decide +kernel, by decide, ?_⟩
  obtain ⟨m', _, h1, _, _, ⟨fs, h2, h3⟩, _⟩ := c99_first_last ht rfl rfl (by decide) hf
  refine ⟨m', h1, ?_⟩
  rw [h2, Option.map_some, h3]
  rfl

/-- A call once there is a fragment takes the fragment for the movie box. -/
theorem c99_not_late {m m' : Movie} (h : start m = .ok m') (c : Call) : apply m' c = .ub := by
  unfold start at h
  cases hm : m.mvex with
  | none => rw [hm] at h; cases h
  | some l =>
    rw [hm] at h
    obtain ⟨fs, hfs⟩ : ∃ fs, m'.moof = some fs := by
      simp only at h
      cases h1 : setIndexes m l with
      | err e => rw [h1] at h; cases h
      | ub => rw [h1] at h; cases h
      | ok l1 =>
        rw [h1, Res.ok_bind] at h
        cases h2 : writeAll l1 with
        | err e => rw [h2] at h; cases h
        | ub => rw [h2] at h; cases h
        | ok bs =>
          rw [h2, Res.ok_bind] at h
          cases h3 : makeTrafs m l1 with
          | err e => rw [h3] at h; cases h
          | ub => rw [h3] at h; cases h
          | ok r =>
            rw [h3, Res.ok_bind] at h
            cases h
            exact ⟨_, rfl⟩
    unfold apply setDefaults
    rw [hfs]

/-- Without a call no fragment can be started. -/
theorem c99_none {m : Movie} (h : m.mvex = none) : start m = .err .badParam := by
  unfold start
  rw [h]

/-- The time of a fragment is 32 bits of the duration of the media: with a duration of 2^32 + 5 the fragment begins at 5. -/
theorem c99_not_time : ∃ m', session ⟨[⟨1, 1, 2 ^ 32 + 5⟩], none, none, []⟩ [⟨1, 1000, 0, 1, 0⟩] = .ok m' ∧
    (current m' 1).bind (·.tfdt) = some ⟨0, 0, 5⟩ := by
  have hf : ∀ c ∈ [(⟨1, 1000, 0, 1, 0⟩ : Call)], c.Fits [⟨1, 1, 2 ^ 32 + 5⟩] := by
    intro c hc
    rw [List.mem_singleton] at hc
    subst hc
    exact ⟨⟨_, List.mem_singleton.mpr rfl, rfl⟩, by decide, by decide⟩
  have ht : TracksFit [⟨1, 1, 2 ^ 32 + 5⟩] := by
    refine ⟨by decide, ?_, ?_⟩ <;> intro t ht <;> rw [List.mem_singleton] at ht <;> subst ht <;> decide
  obtain ⟨m', _, h1, _, h3⟩ := c99_same_partial (m := ⟨[⟨1, 1, 2 ^ 32 + 5⟩], none, none, []⟩) ht rfl rfl (by decide) hf (by decide)
  obtain ⟨_, f, hc, _, _, _, htime, _⟩ := h3 _ (List.mem_singleton.mpr rfl) _ (List.mem_singleton.mpr rfl) rfl
  refine ⟨m', h1, ?_⟩
  rw [show current m' 1 = some f from hc]
  exact htime

/-! ## Concrete cases -/

def film : Movie := ⟨[⟨1, 1, 90000⟩, ⟨7, 2, 44100⟩], none, none, []⟩
def filmCalls : List Call := [⟨7, 1024, 0, 1, 3⟩, ⟨1, 3000, 0, 0, 0⟩]

example : TracksFit film.tracks := by
  refine ⟨by decide, ?_, ?_⟩ <;> intro t ht <;> simp only [film, List.mem_cons, List.not_mem_nil, or_false] at ht <;>
    rcases ht with rfl | rfl <;> decide

example : (∀ c ∈ filmCalls, c.Fits film.tracks) ∧ (filmCalls.map (·.id)).Nodup := by
  refine ⟨?_, by decide⟩
  intro c hc
  simp only [filmCalls, List.mem_cons, List.not_mem_nil, or_false] at hc
  rcases hc with rfl | rfl
  · exact ⟨⟨⟨7, 2, 44100⟩, by simp [film], rfl⟩, by decide, by decide⟩
  · exact ⟨⟨⟨1, 1, 90000⟩, by simp [film], rfl⟩, by decide, by decide⟩

example : ((session film filmCalls).bind fun m => (readAll m.file).bind fun l => (found l 7).bind fun x =>
    .ok (x, (current m 1).map (·.trex), m.file.map (·.length))) =
    .ok (⟨2, 1024, 0, 0x60000⟩, some ⟨1, 3000, 0, 0x10000⟩, [32, 32]) := by decide +kernel

/-- Samples that fit into the fragment of the track 7. -/
example : Traf.Fits (put ⟨⟨2, 1024, 0, 0x60000⟩, ⟨0, 0, 7, 0, 2, 0, 0, 0⟩, some ⟨0, 0, 44100⟩, []⟩ 500
    [⟨0, 0, 8, 0, [⟨1024, 300, 0x60000, 0⟩, ⟨1000, 310, 0x60000, 0⟩]⟩]) :=
  ⟨by decide, by decide, by decide, by decide, by
    intro d hd; cases hd; exact ⟨by decide, .inl ⟨rfl, by decide⟩⟩, by simp [put], by
    intro r hr
    simp only [put, List.mem_cons, List.not_mem_nil, or_false] at hr
    subst hr
    refine ⟨by decide, by decide, by simp, fun e he => ?_⟩
    simp only [List.mem_cons, List.not_mem_nil, or_false] at he
    rcases he with rfl | rfl <;> exact ⟨by decide, by decide, by decide, by decide⟩, by decide⟩

end Verif.Defs
