import Verif.Lemmas.OdFrame

/-!
# C75: object descriptor streams show each stream as its track is described
-/

namespace Verif.Od

open Verif.Descr
open Verif.Tref (Ref addTrackID)

/-- A frame that is added to an object descriptor track is stored as commands without stream
descriptors, the streams it speaks of are appended to the track reference, and reading it, also after
others were appended, gives back its commands with each stream described as its track is.

Partial: when no stream was named before, none is named twice in the frame, no stream descriptor has
pointers that name streams; see `c75_twice`, `c75_pointer_in_stream`. -/
theorem c75_frame_partial {cs : List Cmd} {m : Ref} (hok : ∀ c ∈ cs, CmdOk c) (hc : ∀ c ∈ cs, Carries c)
    (hl : ∀ c ∈ cs, (cmdPayload c).length < 2 ^ 28) (hf : Fresh m.ids (cs.flatMap cmdIds)) :
    ∃ kept, addSamples 1 (frame cs) m = ({ m with ids := m.ids ++ cs.flatMap cmdIds }, .ok (some (frame kept))) ∧
      kept.length = cs.length ∧ (∀ c ∈ kept, CmdOk c ∧ NoStreams c) ∧
      ∀ (v : Mov) (sl : Option Sl) (f : Nat → Es) (later : List Nat),
        (∀ c ∈ cs, ∀ id ∈ esIds c, Shows v sl id (f id) ∧ EsOk (f id)) →
        (∀ c ∈ cs, (cmdPayload (shown f c)).length < 2 ^ 28) →
        rewriteFrame v sl (m.ids ++ cs.flatMap cmdIds ++ later) (frame kept) = .ok (frame (cs.map (shown f))) := by
  refine ⟨stored m.ids.length cs, ?_, outs_length cs _, fun c h => ?_, fun v sl f later h1 h2 => ?_⟩
  · have := storeFrame_gives hok hc hl hf
    unfold addSamples
    rw [if_neg (by decide), if_neg (by decide)]
    show St.bind (storeFrame (frame cs)) (fun bs => St.pure (some bs)) m = _
    unfold St.bind
    rw [this]
    rfl
  · obtain ⟨h1, _, h3⟩ := stored_ok hok hl hf.few c h
    exact ⟨h1, h3⟩
  · rw [List.append_assoc]
    exact rewriteFrame_gives hok hc hl hf.few h1 h2

theorem stream_induction {css : List (List Cmd)} (hok : ∀ cs ∈ css, ∀ c ∈ cs, CmdOk c ∧ Carries c ∧ (cmdPayload c).length < 2 ^ 28) :
    ∀ m : Ref, Fresh m.ids (css.flatMap fun cs => cs.flatMap cmdIds) →
    ∃ kept : List (List Cmd),
      St.each (fun cs => addSamples 1 (frame cs)) css m =
        ({ m with ids := m.ids ++ css.flatMap fun cs => cs.flatMap cmdIds }, .ok (kept.map fun k => some (frame k))) ∧
      kept.length = css.length ∧
      ∀ (v : Mov) (sl : Option Sl) (f : Nat → Es) (later : List Nat) (i : Nat) (cs k : List Cmd),
        css[i]? = some cs → kept[i]? = some k →
        (∀ c ∈ cs, ∀ id ∈ esIds c, Shows v sl id (f id) ∧ EsOk (f id)) →
        (∀ c ∈ cs, (cmdPayload (shown f c)).length < 2 ^ 28) →
        rewriteFrame v sl (m.ids ++ (css.flatMap fun cs => cs.flatMap cmdIds) ++ later) (frame k) =
          .ok (frame (cs.map (shown f))) := by
  induction css with
  | nil =>
    intro m _
    exact ⟨[], by simp [St.each, St.pure], rfl, fun _ _ _ _ _ _ _ h => by simp at h⟩
  | cons a l ih =>
    intro m hf
    rw [List.flatMap_cons] at hf
    have ha := hok a (by simp)
    obtain ⟨k0, h1, h2, _, h4⟩ := c75_frame_partial (fun c h => (ha c h).1) (fun c h => (ha c h).2.1) (fun c h => (ha c h).2.2) hf.left
    obtain ⟨ks, h5, h6, h7⟩ := ih (fun cs h => hok cs (by simp [h])) { m with ids := m.ids ++ a.flatMap cmdIds } hf.right
    refine ⟨k0 :: ks, ?_, by simp [h6], ?_⟩
    · unfold St.each St.bind
      rw [h1]
      simp only [h5, St.pure, List.map_cons, List.flatMap_cons, List.append_assoc]
    · intro v sl f later i cs k hi hk hs hp
      cases i with
      | zero =>
        simp only [List.getElem?_cons_zero, Option.some.injEq] at hi hk
        subst hi hk
        have := h4 v sl f ((l.flatMap fun cs => cs.flatMap cmdIds) ++ later) hs hp
        simpa [List.flatMap_cons, List.append_assoc] using this
      | succ i =>
        simp only [List.getElem?_cons_succ] at hi hk
        have := h7 v sl f later i cs k hi hk hs hp
        simpa [List.flatMap_cons, List.append_assoc] using this

/-- A whole stream of frames: after all were added, every one reads as it was given, with each stream
described as its track is. -/
theorem c75_stream_partial {css : List (List Cmd)} {m : Ref}
    (hok : ∀ cs ∈ css, ∀ c ∈ cs, CmdOk c ∧ Carries c ∧ (cmdPayload c).length < 2 ^ 28)
    (hf : Fresh m.ids (css.flatMap fun cs => cs.flatMap cmdIds)) :
    ∃ (ids : List Nat) (kept : List (List Cmd)),
      St.each (fun cs => addSamples 1 (frame cs)) css m = ({ m with ids := ids }, .ok (kept.map fun k => some (frame k))) ∧
      kept.length = css.length ∧
      ∀ (v : Mov) (sl : Option Sl) (f : Nat → Es) (i : Nat) (cs k : List Cmd),
        css[i]? = some cs → kept[i]? = some k →
        (∀ c ∈ cs, ∀ id ∈ esIds c, Shows v sl id (f id) ∧ EsOk (f id)) →
        (∀ c ∈ cs, (cmdPayload (shown f c)).length < 2 ^ 28) →
        rewriteFrame v sl ids (frame k) = .ok (frame (cs.map (shown f))) := by
  obtain ⟨ks, h1, h2, h3⟩ := stream_induction hok m hf
  refine ⟨_, ks, h1, h2, fun v sl f i cs k hi hk hs hp => ?_⟩
  have := h3 v sl f [] i cs k hi hk hs hp
  rwa [List.append_nil] at this

/-- A track is described by the descriptor of its sample description; only the values that are not
written may differ. -/
theorem c75_description {v : Mov} {sl : Option Sl} {id : Nat} {e : Es} (h : Shows v sl id e) :
    ∃ E, makeESD v sl id = .ok E ∧ esSize E = esSize e ∧ putEs E = putEs e ∧ E.esid = id := by
  obtain ⟨E, h1, h2, _⟩ := makeESD_shows h
  refine ⟨E, h1, ?_, ?_, ?_⟩
  · rw [← h2, esSize_norm]
  · rw [← h2, putEs_norm]
  · obtain ⟨t, file, h3, _, _, _, _, _, rfl⟩ := h
    have := congrArg Es.esid h2
    simpa [esNorm, described, show t.id = id by simpa using List.find?_some h3] using this

/-- A stream whose track is missing is an error, and so is a number that was never given out. -/
theorem c75_missing (v : Mov) (sl : Option Sl) (ids : List Nat) (i : Nat) :
    (i > ids.length → rewriteRef v sl ids i = .err .invalidMedia) ∧
    (∀ id, ids[i]? = some id → (∀ t ∈ v.tracks, t.id ≠ id) → rewriteRef v sl ids (i + 1) = .err .badParam) := by
  refine ⟨fun h => by unfold rewriteRef; rw [if_pos h], fun id h ht => ?_⟩
  have hl : i < ids.length := by
    rcases Nat.lt_or_ge i ids.length with hl | hl
    · exact hl
    · rw [List.getElem?_eq_none hl] at h; cases h
  unfold rewriteRef
  rw [if_neg (by omega), if_neg (by omega), Nat.add_sub_cancel, h]
  simp only
  unfold makeESD
  have : v.tracks.find? (fun t => t.id = id) = none := by
    rw [List.find?_eq_none]
    intro t hm
    simpa using ht t hm
  rw [this]
  rfl

/-- Several frames at once are refused, and nothing is changed. -/
theorem c75_one_at_a_time (n : Nat) (fr : Bytes) (m : Ref) (h : 1 < n) :
    addSamples n fr m = (m, .err .notImplemented) := by
  unfold addSamples
  rw [if_neg (by omega), if_pos (by omega)]
  rfl

/-! ## Cases -/

/-- The stream with another number. -/
def number (id : Nat) : Es := { audio with esid := id }

theorem number_ok {id : Nat} (h : id < 2 ^ 16) : EsOk (number id) :=
  { audio_ok with
    head := by
      obtain ⟨_, h2⟩ := audio_ok.head
      exact ⟨h, h2⟩ }

def object (id : Nat) (es : List Es) (ptr : List Ptr) : Od := ⟨1, id, [], es, [], [], [], ptr, []⟩

theorem object_ok {id : Nat} {es : List Es} {ptr : List Ptr} (hid : id < 2 ^ 10) (he : ∀ e ∈ es, EsOk e)
    (hp : ∀ p ∈ ptr, PtrOk p) : OdOk (object id es ptr) where
  tag := .inl rfl
  id := hid
  url := by show ([] : Bytes).length < 256; decide
  items := by
    intro i hi
    simp only [object, Od.items, List.map_nil, List.append_nil, List.nil_append, List.mem_append, List.mem_map] at hi
    rcases hi with ⟨x, hx, rfl⟩ | ⟨x, hx, rfl⟩
    · exact he x hx
    · exact hp x hx
  oci := by intro i hi; cases hi
  ext := by intro i hi; cases hi

/-- Two objects, of streams 1 and 2, the second with a pointer to stream 3. -/
def two : List Cmd :=
  [.odUpdate [object 5 [number 1] []] [], .odUpdate [object 6 [number 2] [⟨255, 2, 3⟩]] []]

/-- The movie of the tracks. -/
def tracks (l : List Nat) : Mov := ⟨1000, l.map fun id => ⟨id, .ok (number 0), [], [], 44100⟩⟩

def seen (id : Nat) : Es := { number id with sl := some (packetSl 1000 44100) }

theorem seen_ok {id : Nat} (h : id < 2 ^ 16) : EsOk (seen id) :=
  { number_ok h with
    sl := by
      intro c hc
      cases hc
      exact ⟨rfl, .inl rfl, by decide, by decide, by decide, by decide, by decide⟩ }

theorem seen_shows {l : List Nat} {id : Nat} (h : id ∈ l) : Shows (tracks l) none id (seen id) := by
  refine ⟨⟨id, .ok (number 0), [], [], 44100⟩, number 0, ?_, rfl, number_ok (by decide), by decide +kernel,
    fun _ => ⟨_, rfl, rfl⟩, (by intro p hp; cases hp), rfl⟩
  show (l.map fun id => (⟨id, .ok (number 0), [], [], 44100⟩ : Trk)).find? (fun t => decide (t.id = id)) = _
  rw [List.find?_map]
  have : l.find? ((fun t => decide (t.id = id)) ∘ fun id => (⟨id, .ok (number 0), [], [], 44100⟩ : Trk)) = some id := by
    induction l with
    | nil => cases h
    | cons a l ih =>
      by_cases e : a = id
      · subst e; simp [Function.comp]
      · rcases List.mem_cons.1 h with h | h
        · exact absurd h.symm e
        · rw [List.find?_cons_of_neg (by simpa [Function.comp] using e)]
          exact ih h
  rw [this]
  rfl

theorem two_ok : ∀ c ∈ two, CmdOk c ∧ Carries c ∧ (cmdPayload c).length < 2 ^ 28 := by
  intro c hc
  have ho : ∀ e : List Any, e = [] → ∀ a ∈ e, AnyOk a := by intro e he a ha; subst he; cases ha
  simp only [two, List.mem_cons, List.not_mem_nil, or_false] at hc
  rcases hc with rfl | rfl
  · refine ⟨⟨fun d hd => ?_, (by intro a ha; cases ha)⟩, fun d hd => ?_, by decide +kernel⟩
    · rw [List.mem_singleton.1 hd]
      exact object_ok (by decide) (fun e he => by rw [List.mem_singleton.1 he]; exact number_ok (by decide))
        (by intro p hp; cases hp)
    · rw [List.mem_singleton.1 hd]
      exact ⟨rfl, fun e he p hp => by rw [List.mem_singleton.1 he] at hp; cases hp⟩
  · refine ⟨⟨fun d hd => ?_, (by intro a ha; cases ha)⟩, fun d hd => ?_, by decide +kernel⟩
    · rw [List.mem_singleton.1 hd]
      exact object_ok (by decide) (fun e he => by rw [List.mem_singleton.1 he]; exact number_ok (by decide))
        (fun p hp => by rw [List.mem_singleton.1 hp]; exact ⟨by decide, by decide, by decide⟩)
    · rw [List.mem_singleton.1 hd]
      exact ⟨rfl, fun e he p hp => by rw [List.mem_singleton.1 he] at hp; cases hp⟩

theorem two_fresh : Fresh [7] (two.flatMap cmdIds) :=
  ⟨by decide, by decide, by decide⟩

example := c75_frame_partial (m := ⟨0, [7]⟩) (fun c h => (two_ok c h).1) (fun c h => (two_ok c h).2.1)
  (fun c h => (two_ok c h).2.2) two_fresh
example : (∀ c ∈ two, ∀ id ∈ esIds c, Shows (tracks [7, 1, 2]) none id (seen id) ∧ EsOk (seen id)) ∧
    (∀ c ∈ two, (cmdPayload (shown seen c)).length < 2 ^ 28) ∧ two.flatMap cmdIds = [1, 3, 2] := by
  refine ⟨fun c hc id hi => ?_, by decide +kernel, by decide⟩
  simp only [two, List.mem_cons, List.not_mem_nil, or_false] at hc
  have : id = 1 ∨ id = 2 := by
    rcases hc with rfl | rfl
    · exact .inl (List.mem_singleton.1 hi)
    · exact .inr (List.mem_singleton.1 hi)
  rcases this with rfl | rfl
  · exact ⟨seen_shows (by decide), seen_ok (by decide)⟩
  · exact ⟨seen_shows (by decide), seen_ok (by decide)⟩
example := c75_stream_partial (css := [two, []]) (m := ⟨0, [7]⟩)
  (by intro cs h c hc
      rcases List.mem_cons.1 h with rfl | h
      · exact two_ok c hc
      · rw [List.mem_singleton.1 h] at hc; cases hc) two_fresh
example := c75_description (seen_shows (l := [7, 1, 2]) (id := 2) (by decide))
example := (c75_missing (tracks [1]) none [1, 9] 1).2 9 rfl (by decide)
example := c75_one_at_a_time 2 (frame two) ⟨0, []⟩ (by decide)

/-! ## What is not kept -/

/-- Three objects, the third with the stream of the first: it is read with the stream of the second,
as the number stored is that of the streams known, not of the one named. -/
theorem c75_twice :
    ∃ c bs, CmdOk c ∧ Carries c ∧ (cmdPayload c).length < 2 ^ 28 ∧ c = .odUpdate
        [object 5 [number 1] [], object 6 [number 2] [], object 7 [number 1] []] [] ∧
      addSamples 1 (frame [c]) ⟨0, []⟩ = (⟨0, [1, 2]⟩, .ok (some bs)) ∧
      rewriteFrame (tracks [1, 2]) none [1, 2] bs = .ok (frame [.odUpdate
        [object 5 [seen 1] [], object 6 [seen 2] [], object 7 [seen 2] []] []]) := by
  refine ⟨_, (frame [.odUpdate [{ object 5 [] [] with tag := 0x11, ref := [1] }, { object 6 [] [] with tag := 0x11, ref := [2] },
    { object 7 [] [] with tag := 0x11, ref := [2] }] []]), ?_, ?_, ?_, rfl, ?_, ?_⟩
  · refine ⟨fun d hd => ?_, (by intro a ha; cases ha)⟩
    simp only [List.mem_cons, List.not_mem_nil, or_false] at hd
    rcases hd with rfl | rfl | rfl
    all_goals
      exact object_ok (by decide) (fun e he => by rw [List.mem_singleton.1 he]; exact number_ok (by decide))
        (by intro p hp; cases hp)
  · intro d hd
    simp only [List.mem_cons, List.not_mem_nil, or_false] at hd
    rcases hd with rfl | rfl | rfl
    all_goals exact ⟨rfl, fun e he p hp => by rw [List.mem_singleton.1 he] at hp; cases hp⟩
  · decide +kernel
  · decide +kernel
  · decide +kernel

/-- A pointer inside a stream descriptor that names a stream is counted before the stream's own number
is taken: the object is read with the stream the pointer names. -/
theorem c75_pointer_in_stream :
    ∃ c bs, CmdOk c ∧ (cmdPayload c).length < 2 ^ 28 ∧
      c = .odUpdate [object 5 [{ number 1 with ptrs := [⟨255, 3, 2⟩] }] []] [] ∧
      addSamples 1 (frame [c]) ⟨0, []⟩ = (⟨0, [1, 2]⟩, .ok (some bs)) ∧
      rewriteFrame (tracks [1, 2]) none [1, 2] bs = .ok (frame [.odUpdate [object 5 [seen 2] []] []]) := by
  refine ⟨_, (frame [.odUpdate [{ object 5 [] [] with tag := 0x11, ref := [2] }] []]), ?_, ?_, rfl, ?_, ?_⟩
  · refine ⟨fun d hd => ?_, (by intro a ha; cases ha)⟩
    rw [List.mem_singleton.1 hd]
    refine object_ok (by decide) (fun e he => ?_) (by intro p hp; cases hp)
    rw [List.mem_singleton.1 he]
    exact { number_ok (id := 1) (by decide) with
      ptrs := by intro p hp; rw [List.mem_singleton.1 hp]; exact ⟨by decide, by decide, by decide⟩ }
  · decide +kernel
  · decide +kernel
  · decide +kernel

/-- A stream of number 0 is refused, but the frame is stored as it was given, and the streams before
it stay in the reference. -/
theorem c75_errors_hidden :
    ∃ fr, fr = frame [.odUpdate [object 5 [number 1] [], object 6 [number 0] []] []] ∧
      addSamples 1 fr ⟨0, []⟩ = (⟨0, [1]⟩, .ok (some fr)) :=
  ⟨_, rfl, by decide +kernel⟩

/-- A frame that cannot be read is stored as it was given. -/
theorem c75_anything_stored : ∃ m', addSamples 1 [0x55, 0x01, 0x00, 0xFF] ⟨0, []⟩ = (m', .ok (some [0x55, 0x01, 0x00, 0xFF])) :=
  ⟨⟨0, []⟩, by decide +kernel⟩

/-- A reference with the number 0 is looked up before the start of the array. -/
theorem c75_zero_reference (v : Mov) (sl : Option Sl) (ids : List Nat) : rewriteRef v sl ids 0 = .ub := by
  unfold rewriteRef
  rw [if_neg (by omega), if_pos rfl]

/-- A pointer whose number was never given out is looked up behind the end of the array. -/
theorem c75_pointer_unchecked (ids : List Nat) (p : Ptr) (h : Named p) (hl : ids.length < p.es) : rewritePtr ids p = .ub := by
  unfold rewritePtr
  rw [if_pos (show p.es ≠ 0 ∧ p.es ≠ 0xFFFF from h), List.getElem?_eq_none (by omega)]

/-- Without a configuration given, a track whose descriptor has its own configuration is described
with one that was deleted. -/
theorem c75_own_configuration {v : Mov} {t : Trk} {file : Es} {c : Sl} {id : Nat}
    (h1 : v.tracks.find? (fun t => t.id = id) = some t) (h2 : t.esd = .ok file) (h3 : EsOk file)
    (h4 : (esBytes file).length < 2 ^ 28) (h5 : file.sl = some c) (h6 : c.predefined ≠ 2) : makeESD v none id = .ub := by
  unfold makeESD
  rw [h1]
  simp only [h2, c74_copy (a := .item (.es file)) h3 h4, readAny, h5, if_neg h6]

/-- The last number: a pointer to the stream numbered 65535 reads as one that names none. -/
theorem c75_last_number {ids : List Nat} {id : Nat} (hl : ids.length = 65534) (h0 : id ≠ 0) (h1 : id ≠ 0xFFFF) (hn : id ∉ ids) :
    ∃ m p, storePtr ⟨255, 1, id⟩ ⟨0, ids⟩ = (m, .ok p) ∧ m.ids[65534]? = some id ∧ rewritePtr m.ids p = .ok p ∧ p.es ≠ id := by
  refine ⟨⟨0, ids ++ [id]⟩, ⟨255, 1, 65535⟩, ?_, ?_, ?_, fun h => h1 h.symm⟩
  · have hc : ids.contains id = false := by simpa using hn
    unfold storePtr
    rw [if_pos ⟨h0, h1⟩]
    show St.bind (St.add id) (fun _ => St.bind St.count fun n => St.pure _) _ = _
    unfold St.bind St.add addTrackID
    rw [if_neg h0]
    simp only [hc, Bool.false_eq_true, if_false, St.count, St.pure, List.length_append, hl, List.length_singleton]
  · simp only
    rw [List.getElem?_append_right (by omega), hl]
    rfl
  · unfold rewritePtr
    rw [if_neg (by simp)]

example := c75_pointer_unchecked [1, 2] ⟨255, 1, 3⟩ (by decide) (by decide)
example := c75_own_configuration (v := ⟨1000, [⟨1, .ok (seen 1), [], [], 44100⟩]⟩) (id := 1) rfl rfl (seen_ok (by decide))
  (by decide +kernel) rfl (by decide)
example : ∃ ids : List Nat, ids.length = 65534 ∧ (6 : Nat) ∉ ids := by
  refine ⟨List.replicate 65534 5, List.length_replicate, fun h => ?_⟩
  exact absurd (List.eq_of_mem_replicate h) (by decide)

end Verif.Od
