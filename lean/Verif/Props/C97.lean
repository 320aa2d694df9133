import Verif.Spec.SubsTrack

/-!
# C97: sub-sample information of a track through the calls, writing and reading
-/

namespace Verif.Subs

/-- The version is 1 exactly if a size needs it. -/
def Sound (b : Box) : Prop := (b.version = 0 ∨ b.version = 1) ∧ (b.version = 1 ↔ Big b.entries)

theorem zipSubs_plain (l : List Sub) (x : List Nat) :
    zipSubs l.length (l.map Sub.size ++ x) (l.map Sub.priority ++ x) (l.map Sub.discardable ++ x) (List.replicate l.length 0) =
      .ok (l.map fun s => { s with parameters := 0 }) := by
  induction l with
  | nil => simp [zipSubs]
  | cons s l ih => simp only [List.length_cons, List.map_cons, List.cons_append, List.replicate_succ, zipSubs, ih, Res.bind]

theorem sound_add {b : Box} (h : Sound b) (delta : Nat) (l : List Sub) :
    Sound { b with
      version := if l.any (fun s => decide (s.size > 0xFFFF)) then 1 else b.version
      entries := b.entries ++ [⟨delta, l⟩] } := by
  obtain ⟨h1, h2⟩ := h
  have key : Big (b.entries ++ [⟨delta, l⟩]) ↔ Big b.entries ∨ ∃ s ∈ l, 2 ^ 16 ≤ s.size := by
    unfold Big
    simp only [List.mem_append, List.mem_singleton]
    constructor
    · rintro ⟨e, he | he, s, hs⟩
      · exact .inl ⟨e, he, s, hs⟩
      · subst he; exact .inr ⟨s, hs⟩
    · rintro (⟨e, he, s, hs⟩ | ⟨s, hs⟩)
      · exact ⟨e, .inl he, s, hs⟩
      · exact ⟨_, .inr rfl, s, hs⟩
  rw [← any_big] at key
  unfold Sound
  simp only [key]
  cases hb : l.any (fun s => decide (s.size > 0xFFFF)) with
  | true => simp
  | false => simpa using ⟨h1, h2⟩

theorem map_modify {t : Track} {k : Nat} {b b' : Box} {f : Table → Table} (hb : t[k]? = some b) (hf : tableOf b' = f (tableOf b)) :
    (t.set k b').map tableOf = (t.map tableOf).modify k f := by
  apply List.ext_getElem?
  intro i
  rw [List.getElem?_map, List.getElem?_set, List.getElem?_modify, List.getElem?_map]
  by_cases h : k = i
  · subst h
    have : k < t.length := by
      rw [List.getElem?_eq_some_iff] at hb
      exact hb.1
    rw [if_pos rfl, if_pos this, hb]
    simp [hf]
  · simp [h]

theorem onBox_step {t : Track} {k : Nat} (hk : k < t.length) (hs : ∀ b ∈ t, Sound b) {f : Box → Res Box} {g : Table → Table}
    (h : ∀ b, Sound b → ∃ b', f b = .ok b' ∧ tableOf b' = g (tableOf b) ∧ Sound b') :
    ∃ t', onBox t k f = .ok t' ∧ t'.map tableOf = (t.map tableOf).modify k g ∧ ∀ b ∈ t', Sound b := by
  have hb : t[k]? = some t[k] := List.getElem?_eq_getElem hk
  obtain ⟨b', h1, h2, h3⟩ := h t[k] (hs _ (List.getElem_mem hk))
  refine ⟨t.set k b', ?_, map_modify hb h2, fun b hm => ?_⟩
  · unfold onBox
    rw [hb]
    simp only
    rw [h1]
    rfl
  · rcases List.mem_or_eq_of_mem_set hm with hm | hm
    · exact hs b hm
    · subst hm; exact h3

theorem run_rep : ∀ (os : List Op) (t : Track), Named t.length os → (∀ b ∈ t, Sound b) →
    ∃ t', runAll call t os = .ok t' ∧ t'.map tableOf = os.foldl Op.apply (t.map tableOf) ∧ ∀ b ∈ t', Sound b
  | [], t, _, hs => ⟨t, rfl, rfl, hs⟩
  | o :: os, t, hn, hs => by
    have step : ∃ t', call t o = .ok t' ∧ t'.map tableOf = Op.apply (t.map tableOf) o ∧ (∀ b ∈ t', Sound b) ∧ Named t'.length os := by
      have len : ∀ {t' : Track} {k g}, t'.map tableOf = (t.map tableOf).modify k g → t'.length = t.length := by
        intro t' k g h
        have := congrArg List.length h
        simpa using this
      cases o with
      | new =>
        refine ⟨t ++ [empty], rfl, by rw [List.map_append]; rfl, fun b hb => ?_, by rw [List.length_append]; exact hn⟩
        rcases List.mem_append.mp hb with hb | hb
        · exact hs b hb
        · rw [List.mem_singleton] at hb
          subst hb
          exact ⟨.inl rfl, by simp [empty, Big]⟩
      | flags k f =>
        obtain ⟨t', h1, h2, h3⟩ := onBox_step (f := fun b => .ok { b with flags := f }) (g := fun x => { x with flags := f })
          hn.1 hs fun b hb => ⟨_, rfl, rfl, hb⟩
        exact ⟨t', h1, h2, h3, by rw [len h2]; exact hn.2⟩
      | entry k e x =>
        obtain ⟨t', h1, h2, h3⟩ := onBox_step (f := fun b => addEntry b e.delta e.subs.length (e.subs.map Sub.size ++ x)
            (e.subs.map Sub.priority ++ x) (e.subs.map Sub.discardable ++ x))
          (g := fun y => { y with entries := y.entries ++ [{ e with subs := e.subs.map fun s => { s with parameters := 0 } }] })
          hn.1 hs fun b hb => ⟨_, by unfold addEntry addEntry2; rw [zipSubs_plain]; rfl, rfl, sound_add hb _ _⟩
        exact ⟨t', h1, h2, h3, by rw [len h2]; exact hn.2⟩
      | entry2 k e x =>
        obtain ⟨t', h1, h2, h3⟩ := onBox_step (f := fun b => addEntry2 b e.delta e.subs.length (e.subs.map Sub.size ++ x)
            (e.subs.map Sub.priority ++ x) (e.subs.map Sub.discardable ++ x) (e.subs.map Sub.parameters ++ x))
          (g := fun y => { y with entries := y.entries ++ [e] })
          hn.1 hs fun b hb => ⟨_, by unfold addEntry2; rw [zipSubs_columns]; rfl, rfl, sound_add hb _ _⟩
        exact ⟨t', h1, h2, h3, by rw [len h2]; exact hn.2⟩
    obtain ⟨t1, h1, h2, h3, h4⟩ := step
    obtain ⟨t2, h5, h6, h7⟩ := run_rep os t1 h4 h3
    refine ⟨t2, ?_, ?_, h7⟩
    · unfold runAll
      rw [h1]
      exact h5
    · rw [h6, h2]
      rfl

/-- After any calls that name boxes that were made, the boxes hold the sets that the calls say. -/
theorem c97_history (os : List Op) (hn : Named 0 os) :
    ∃ t, runAll call [] os = .ok t ∧ t.map tableOf = os.foldl Op.apply [] ∧ ∀ b ∈ t, Sound b :=
  run_rep os [] hn nofun

/-- A new box gets a name that no other box has. -/
theorem c97_new (os : List Op) (hn : Named 0 os) :
    ∃ t, runAll call [] os = .ok t ∧ (newBox t).2 = (os.foldl Op.apply []).length ∧
      ((newBox t).1.map tableOf)[(newBox t).2]? = some ⟨0, []⟩ := by
  obtain ⟨t, h1, h2, _⟩ := c97_history os hn
  refine ⟨t, h1, ?_, ?_⟩
  · rw [← h2]; simp [newBox]
  · simp [newBox, tableOf, empty]

theorem tells_row {e : Entry} (h : 1 ≤ e.subs.length) : Tells (rowOf e) e := by
  refine ⟨rfl, rfl, ?_⟩
  unfold rowOf
  rw [if_neg (by omega)]

/-- The entries of the first set come back, each with its sub-samples, if there are any. -/
theorem getInfo_spec {t : Track} {ts : List Table} (ht : t.map tableOf = ts) (hf : ∀ x ∈ ts, ∀ e ∈ x.entries, 1 ≤ e.subs.length) :
    Answered (getInfo t) ts := by
  subst ht
  cases t with
  | nil => rfl
  | cons b t =>
    refine ⟨_, rfl, by simp [tableOf], fun i r e hr he => ?_⟩
    rw [List.getElem?_map] at hr
    have he' : b.entries[i]? = some e := he
    rw [he'] at hr
    simp only [Option.map_some, Option.some.injEq] at hr
    subst hr
    exact tells_row (hf (tableOf b) (List.mem_cons_self ..) e (List.mem_of_getElem? he'))

/-- What is asked for after the calls. -/
theorem c97_asked (os : List Op) (hn : Named 0 os) (hf : ∀ x ∈ os.foldl Op.apply [], ∀ e ∈ x.entries, 1 ≤ e.subs.length) :
    ∃ t, runAll call [] os = .ok t ∧ Answered (getInfo t) (os.foldl Op.apply []) := by
  obtain ⟨t, h1, h2, _⟩ := c97_history os hn
  exact ⟨t, h1, getInfo_spec h2 hf⟩

theorem box_fits {b : Box} (hs : Sound b) (hf : TableFits (tableOf b)) : BoxRoundTrip (size b) (serialize b) parse b (layout b) := by
  refine c41_round_trip b (by have := hs.1; omega) hf.flags ?_ hf.entries ?_
  · have h1 := hf.size
    have h2 : (b.entries.flatMap (entryBytes b.version)).length ≤ (b.entries.map fun e => 6 + e.subs.length * 10).sum := by
      generalize b.entries = es
      induction es with
      | nil => exact Nat.le_refl _
      | cons e es ih =>
        rw [List.flatMap_cons, List.length_append, entryBytes_length, List.map_cons, List.sum_cons]
        have : e.subs.length * (if b.version = 1 then 10 else 8) ≤ e.subs.length * 10 :=
          Nat.mul_le_mul_left _ (by split <;> omega)
        omega
    simp only [layout, fullBox, box, List.length_append, be_length]
    simp only [tableOf] at h1
    omega
  · rcases hs.1 with h | h
    · exact .inr fun hb => by have := hs.2.mpr hb; omega
    · exact .inl h

theorem back : ∀ (t : Track), (∀ b ∈ t, Sound b) → (∀ b ∈ t, TableFits (tableOf b)) →
    writeAll t = .ok (t.map layout) ∧ readAll (t.map layout) = .ok t
  | [], _, _ => ⟨rfl, rfl⟩
  | b :: t, hs, hf => by
    obtain ⟨h1, h2⟩ := back t (fun b hb => hs b (List.mem_cons_of_mem _ hb)) fun b hb => hf b (List.mem_cons_of_mem _ hb)
    have rt := box_fits (hs b (List.mem_cons_self ..)) (hf b (List.mem_cons_self ..))
    obtain ⟨h, hr⟩ := rt.read []
    rw [List.append_nil] at hr
    constructor
    · unfold writeAll
      rw [rt.write, h1]
      rfl
    · rw [List.map_cons]
      unfold readAll
      rw [hr, h2]
      rfl

/-- What the calls say is in the file: reading it gives all sets, and the same answer. -/
theorem c97_saved (os : List Op) (hn : Named 0 os) (hf : ∀ x ∈ os.foldl Op.apply [], TableFits x) :
    ∃ t bs t', runAll call [] os = .ok t ∧ writeAll t = .ok bs ∧ readAll bs = .ok t' ∧
      t'.map tableOf = os.foldl Op.apply [] ∧ getInfo t' = getInfo t := by
  obtain ⟨t, h1, h2, h3⟩ := c97_history os hn
  obtain ⟨h4, h5⟩ := back t h3 fun b hb => hf _ (h2 ▸ List.mem_map_of_mem hb)
  exact ⟨t, _, t, h1, h4, h5, h2, rfl⟩

/-! ## Examples, and where the code does not do it -/

def ops : List Op := [.new, .new, .flags 1 7, .entry 0 ⟨1, [⟨100, 1, 0, 9⟩, ⟨70000, 255, 1, 0⟩]⟩ [3], .entry2 1 ⟨2, [⟨5, 6, 1, 77⟩]⟩ [],
  .entry2 0 ⟨4, [⟨1, 2, 0, 3⟩]⟩ []]

example : Named 0 ops ∧ ops.foldl Op.apply [] = [⟨0, [⟨1, [⟨100, 1, 0, 0⟩, ⟨70000, 255, 1, 0⟩]⟩, ⟨4, [⟨1, 2, 0, 3⟩]⟩]⟩,
    ⟨7, [⟨2, [⟨5, 6, 1, 77⟩]⟩]⟩] := by
  refine ⟨by simp [ops, Named], by decide⟩

example : (runAll call [] ops).bind (fun t => (writeAll t).bind fun bs => (readAll bs).bind getInfo) =
    .ok (0, [⟨1, 2, some ([100, 70000], [1, 255], [0, 1])⟩, ⟨4, 1, some ([1], [2], [0])⟩]) := by decide +kernel

/-- All sets but the first, and the codec specific parameters, cannot be asked for. -/
theorem c97_not_all : ∃ os os' : List Op, Named 0 os ∧ Named 0 os' ∧ os.foldl Op.apply [] ≠ os'.foldl Op.apply [] ∧
    (os.foldl Op.apply []).length = (os'.foldl Op.apply []).length + 1 ∧
    (runAll call [] os).bind getInfo = (runAll call [] os').bind getInfo :=
  ⟨[.new, .entry2 0 ⟨1, [⟨5, 6, 1, 77⟩]⟩ [], .new, .entry2 1 ⟨3, [⟨4, 2, 1, 0⟩]⟩ []], [.new, .entry2 0 ⟨1, [⟨5, 6, 1, 78⟩]⟩ []],
    by simp [Named], by simp [Named], by decide, by decide, by decide⟩

/-- A sample without sub-samples: its arrays are not set, and the file cannot be read. -/
theorem c97_not_empty : (runAll call [] [.new, .entry 0 ⟨1, []⟩ []]).bind getInfo = .ok (0, [⟨1, 0, none⟩]) ∧
    (runAll call [] [.new, .entry 0 ⟨1, []⟩ []]).bind (fun t => (writeAll t).bind readAll) = .err .noMemory := by decide +kernel

/-- Flags of more than 24 bits and priorities of more than 8 are cut in the file. -/
theorem c97_not_wide : (runAll call [] [.new, .flags 0 16777217, .entry 0 ⟨1, [⟨5, 257, 0, 0⟩]⟩ []]).bind getInfo =
      .ok (16777217, [⟨1, 1, some ([5], [257], [0])⟩]) ∧
    (runAll call [] [.new, .flags 0 16777217, .entry 0 ⟨1, [⟨5, 257, 0, 0⟩]⟩ []]).bind (fun t => (writeAll t).bind fun bs => (readAll bs).bind getInfo) =
      .ok (1, [⟨1, 1, some ([5], [1], [0])⟩]) := by decide +kernel

end Verif.Subs
