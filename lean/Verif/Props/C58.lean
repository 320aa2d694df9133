import Verif.Lemmas.FragOpen

/-!
# C58: samples added to fragments are reported when the file is opened

The full statement: samples are added to tracks in any number of fragments and the file is written. When
the file is opened, the tracks have exactly these samples, in order, and each is reported with the size,
duration, composition offset and sync status it was added with, the decode time it was added at, and a
place in the file where its data is.

The code violates it, see the theorems after the positive ones.
-/

namespace Verif.FragFile

open Traf (Entry Run Tfhd Tfdt Trex has back)
open Merge (Table Junk Frag Piece Rep Info info isSync samplesOf spread)

/-! ## The pieces of a track -/

theorem pieces_calls (i : Nat) : ∀ (fs : List (List Op)) (pre seq : Nat) (ts : List Track),
    (piecesFrom i pre seq ts fs).map (fun p => (p.entries, p.offs)) =
      (fs.flatMap (adds i)).map fun s => (s.wanted, s.wanted.any (·.offset != 0)) := by
  intro fs
  induction fs with
  | nil => intro pre seq ts; rfl
  | cons f fs ih =>
    intro pre seq ts
    rw [piecesFrom, List.flatMap_cons, List.map_append, List.map_append, ih, ← laid_adds i f 0, List.map_map, List.map_map]
    rfl

theorem pieces_entries (i : Nat) (fs : List (List Op)) (pre seq : Nat) (ts : List Track) :
    (piecesFrom i pre seq ts fs).map Piece.entries = (fs.flatMap (adds i)).map Samples.wanted := by
  have := congrArg (List.map Prod.fst) (pieces_calls i fs pre seq ts)
  simpa [List.map_map, Function.comp_def] using this

theorem pieces_samples (i : Nat) (fs : List (List Op)) (pre seq : Nat) (ts : List Track) :
    (piecesFrom i pre seq ts fs).flatMap Piece.entries = allSamples i fs := by
  unfold allSamples
  rw [List.flatMap_def, List.flatMap_def (l := fs.flatMap (adds i)), pieces_entries]

theorem piece_call {i : Nat} {fs : List (List Op)} {pre seq : Nat} {ts : List Track} {p : Piece}
    (h : p ∈ piecesFrom i pre seq ts fs) :
    ∃ s ∈ fs.flatMap (adds i), p.entries = s.wanted ∧ p.offs = s.wanted.any (·.offset != 0) := by
  have : (p.entries, p.offs) ∈ (piecesFrom i pre seq ts fs).map (fun p => (p.entries, p.offs)) :=
    List.mem_map.2 ⟨p, h, rfl⟩
  rw [pieces_calls] at this
  obtain ⟨s, hs, he⟩ := List.mem_map.1 this
  injection he with e1 e2
  exact ⟨s, hs, e1.symm, e2.symm⟩

theorem head_call {i : Nat} {fs : List (List Op)} {pre seq : Nat} {ts : List Track} {p : Piece}
    (h : (piecesFrom i pre seq ts fs).head? = some p) :
    ∃ s, (fs.flatMap (adds i)).head? = some s ∧ p.entries = s.wanted ∧ p.offs = s.wanted.any (·.offset != 0) := by
  have := congrArg List.head? (pieces_calls i fs pre seq ts)
  rw [List.head?_map, List.head?_map, h] at this
  cases hs : (fs.flatMap (adds i)).head? with
  | none => simp [hs] at this
  | some s =>
    rw [hs] at this
    simp only [Option.map_some, Option.some.injEq, Prod.mk.injEq] at this
    exact ⟨s, rfl, this.1, this.2⟩

theorem calls_good {trex : Nat → Option Trex} {pre : Bytes} {seq : Nat} {ts : List Track} {fs : List (List Op)}
    (h : InRange trex pre seq ts fs) {i : Nat} {s : Samples} (hs : s ∈ fs.flatMap (adds i)) : s.Good := by
  obtain ⟨f, hf, hs⟩ := List.mem_flatMap.1 hs
  exact (h.ops f hf _ (adds_mem hs)).2

theorem wanted_ne {s : Samples} (h : s.Good) : s.wanted ≠ [] := by
  intro hc
  have hl := wanted_length s
  have hp := h.nonempty
  rw [hc, List.length_nil] at hl
  omega

theorem place_lt {trex : Nat → Option Trex} (i : Nat) : ∀ (fs : List (List Op)) (pre : Bytes) (seq : Nat) (ts : List Track),
    InRange trex pre seq ts fs → ∀ p ∈ piecesFrom i pre.length seq ts fs,
      p.place + (p.entries.map Entry.size).sum < 2 ^ 32 := by
  intro fs
  induction fs with
  | nil => intro pre seq ts _ p hp; simp [piecesFrom] at hp
  | cons f fs ih =>
    intro pre seq ts h p hp
    rw [piecesFrom] at hp
    rcases List.mem_append.1 hp with hp | hp
    · obtain ⟨x, hx, rfl⟩ := List.mem_map.1 hp
      have hd := (laid_data i f [] x hx).1
      have hg := (h.one.frag.each _ (laid_mem hx)).2
      obtain ⟨h1, h2⟩ := moof_length h.one
      have hroom := h.one.room
      have := hg.data
      simp only [List.length_nil] at hd
      simp only [pieceOf]
      omega
    · have := ih _ _ _ h.next
      rw [next_length] at this
      exact this p hp

theorem calls_le {ts : List Track} {i : Nat} (hi : i < ts.length) (fs : List (List Op)) :
    24 * (fs.flatMap (adds i)).length + 16 * (allSamples i fs).length ≤ (fs.map (room ts)).sum := by
  induction fs with
  | nil => simp [allSamples]
  | cons f fs ih =>
    have h1 := weight_le hi f
    have h2 := weights_le ts.length f
    have h3 : ((adds i f).map weight).sum = 24 * (adds i f).length + 16 * ((adds i f).flatMap Samples.wanted).length := by
      induction adds i f with
      | nil => rfl
      | cons s l ih =>
        rw [List.map_cons, List.sum_cons, ih, List.flatMap_cons, List.length_append, List.length_cons, wanted_length]
        unfold weight
        omega
    simp only [allSamples, List.flatMap_cons, List.flatMap_append, List.length_append, List.map_cons, List.sum_cons,
      FragFile.room] at ih ⊢
    omega

theorem pieces_fits {trex : Nat → Option Trex} {pre : Bytes} {seq : Nat} {ts : List Track} {fs : List (List Op)}
    (h : InRange trex pre seq ts fs) {i : Nat} (hi : i < ts.length) (hp : Playable (fs.flatMap (adds i))) :
    Merge.Fits (piecesFrom i pre.length seq ts fs) := by
  have hle := calls_le hi fs
  have hroom := h.room
  have hlen : (piecesFrom i pre.length seq ts fs).length = (fs.flatMap (adds i)).length := by
    have := congrArg List.length (pieces_calls i fs pre.length seq ts)
    simpa using this
  refine ⟨?_, ?_, ?_, ?_, ?_, ?_, ?_, ?_⟩
  · intro p hp
    obtain ⟨s, hs, e1, -⟩ := piece_call hp
    rw [e1]
    exact wanted_ne (calls_good h hs)
  · intro p hp
    have := place_lt i fs pre seq ts h p hp
    omega
  · rw [pieces_samples]; omega
  · rw [hlen]; omega
  · intro p hp hoff e he
    obtain ⟨s, hs, e1, e2⟩ := piece_call hp
    rw [e2, List.any_eq_false] at hoff
    rw [e1] at he
    simpa using hoff e he
  · rcases hp.offs with ho | ho
    · left
      intro p hp
      obtain ⟨s, hs, e1, e2⟩ := head_call hp
      obtain ⟨e, he, hne⟩ := ho s hs
      rw [e2, List.any_eq_true]
      exact ⟨e, he, by simpa using hne⟩
    · right
      intro p hp
      obtain ⟨s, hs, e1, e2⟩ := piece_call hp
      rw [e2, List.any_eq_false]
      intro e he
      simpa using ho s hs e he
  · have := hp.sync
    have e : ((piecesFrom i pre.length seq ts fs).map Piece.entries).Pairwise fun a b =>
        (∃ e ∈ a, isSync e = false) → ∃ e ∈ b, isSync e = false := by
      rw [pieces_entries, List.pairwise_map]
      exact this
    rw [List.pairwise_map] at e
    exact e
  · rcases hp.sizes with hs | hs
    · left
      intro p hp
      obtain ⟨s, h1, e1, -⟩ := head_call hp
      rw [e1]
      exact hs s h1
    · right
      rw [pieces_samples]
      exact hs

/-! ## The data -/

theorem spread_cut {file : Bytes} : ∀ (es : List Entry) (p : Nat) (d : Bytes), (es.map Entry.size).sum = d.length →
    (file.drop p).take d.length = d →
    ((spread p es).map fun x => (file.drop x.1).take x.2.size) = cut (es.map Entry.size) d := by
  intro es
  induction es with
  | nil => intro p d _ _; rfl
  | cons e es ih =>
    intro p d hs hd
    rw [List.map_cons, List.sum_cons] at hs
    rw [spread, List.map_cons, List.map_cons, cut]
    congr 1
    · dsimp only
      conv => rhs; rw [← hd]
      rw [List.take_take, Nat.min_eq_left (by omega)]
    · refine ih _ _ (by rw [List.length_drop]; omega) ?_
      conv => rhs; rw [← hd]
      rw [List.length_drop, List.drop_take, List.drop_drop]

theorem samples_data {trex : Nat → Option Trex} (i : Nat) : ∀ (fs : List (List Op)) (pre : Bytes) (seq : Nat) (ts : List Track)
    (rest : Bytes), InRange trex pre seq ts fs →
    ((samplesOf (piecesFrom i pre.length seq ts fs)).map fun x =>
      ((pre ++ (laidOut pre.length seq ts fs ++ rest)).drop x.1).take x.2.size) = allData i fs := by
  intro fs
  induction fs with
  | nil => intro pre seq ts rest _; rfl
  | cons f fs ih =>
    intro pre seq ts rest h
    have hn := ih _ _ _ rest h.next
    rw [next_length] at hn
    rw [piecesFrom, laidOut]
    unfold samplesOf allData
    rw [List.flatMap_append, List.map_append, List.flatMap_cons, List.flatMap_append]
    congr 1
    · obtain ⟨h1, h2⟩ := moof_length h.one
      generalize hfile : pre ++ (fragMoof pre.length seq ts f ++ (mdatBox (dataOf f) ++ laidOut (pre.length +
        (fragMoof pre.length seq ts f).length + (mdatBox (dataOf f)).length) (seq + 1) (advance ts f) fs) ++ rest) = file
      have hf : file = pre ++ fragMoof pre.length seq ts f ++ mdatBox (dataOf f) ++ (laidOut (pre.length +
        (fragMoof pre.length seq ts f).length + (mdatBox (dataOf f)).length) (seq + 1) (advance ts f) fs ++ rest) := by
        rw [← hfile]; simp only [List.append_assoc]
      rw [← laid_adds i f 0]
      have hmem : ∀ x ∈ laid i 0 f, x ∈ laid i 0 f := fun _ h => h
      revert hmem
      generalize hl : laid i 0 f = l
      conv => lhs; rhs; intro x; rw [← hl]
      intro hmem
      clear hl
      induction l with
      | nil => rfl
      | cons x l ihl =>
        rw [List.map_cons, List.map_cons, List.flatMap_cons, List.flatMap_cons, List.map_append,
          ihl fun y hy => hmem y (by simp [hy])]
        congr 1
        have hm := hmem x (by simp)
        obtain ⟨hle, hdat⟩ := laid_data i f [] x hm
        have hg := (h.one.frag.each _ (laid_mem hm)).2
        simp only [List.length_nil, List.nil_append, Nat.zero_add] at hle hdat
        refine spread_cut _ _ _ hg.data ?_
        simp only [pieceOf]
        rw [drop_take_of hf hle.2, hdat]
    · rw [← allData, ← hn]
      unfold samplesOf
      simp only [List.append_assoc]

theorem samples_entries (H : List Piece) : (samplesOf H).map (·.2) = H.flatMap Piece.entries := by
  have key : ∀ (es : List Entry) (p : Nat), (spread p es).map (·.2) = es := by
    intro es
    induction es with
    | nil => intro p; rfl
    | cons e es ih => intro p; simp [spread, ih]
  unfold samplesOf
  induction H with
  | nil => rfl
  | cons p H ih => rw [List.flatMap_cons, List.flatMap_cons, List.map_append, key, ih]

/-! ## The time -/

theorem lengthen_le {D : List Nat} {t : Nat} (h : D.sum ≤ t) : (Merge.lengthen D (some t)).sum ≤ t := by
  by_cases h0 : D = []
  · subst h0; exact Nat.zero_le _
  · exact Nat.le_of_eq (lengthen_eq h fun hc => absurd hc h0)

theorem timeline_sum (i : Nat) : ∀ (fs : List (List Op)) (time : Nat) (D : List Nat), D.sum ≤ time →
    (timeline (segments i time fs) D).sum ≤ time + (fs.map fun f => delays f + spent i f).sum := by
  intro fs
  induction fs with
  | nil => intro time D h; exact h
  | cons f fs ih =>
    intro time D h
    rw [segments, List.map_cons, List.sum_cons]
    by_cases hne : adds i f = []
    · rw [if_pos hne]
      have := ih (time + delays f) D (by omega)
      omega
    · rw [if_neg hne]
      have := ih (time + delays f + spent i f) (Merge.lengthen D (some (time + delays f)) ++
        (adds i f).flatMap fun s => s.wanted.map Entry.duration) (by
          have := lengthen_le (D := D) (t := time + delays f) (by omega)
          rw [List.sum_append, durations_sum]
          omega)
      exact Nat.le_trans this (by omega)

/-! ## The flags that samples are given -/

theorem wanted_flags {s : Samples} {e : Entry} (h : e ∈ s.wanted) : e.flags = 0 ∨ e.flags = 2 ^ 16 := by
  unfold Samples.wanted at h
  obtain ⟨i, -, rfl⟩ := List.mem_map.1 h
  unfold Samples.sample
  cases s.syncs with
  | none => exact .inl rfl
  | some l =>
    dsimp only
    split
    · exact .inl rfl
    · exact .inr rfl

theorem plain_flags {e : Entry} (h : e.flags = 0 ∨ e.flags = 2 ^ 16) : Merge.padding e = 0 ∧ Merge.dependency e = 0 := by
  unfold Merge.padding Merge.dependency
  rcases h with h | h <;> rw [h] <;> decide

theorem expected_eq {i : Nat} {fs : List (List Op)} {ps : List Piece} (hps : ps.flatMap Piece.entries = allSamples i fs)
    (D : List Nat) (n place : Nat) {e : Entry} (he : e ∈ allSamples i fs) (d : Nat) :
    Merge.expected ps D n (place, e) d = ⟨place, e.size, startOf D n, e.offset, d, isSync e, 0xF8, 0, 1⟩ := by
  have hall : ∀ x ∈ allSamples i fs, Merge.padding x = 0 ∧ Merge.dependency x = 0 := by
    intro x hx
    obtain ⟨s, -, hs⟩ := List.mem_flatMap.1 hx
    exact plain_flags (wanted_flags hs)
  unfold Merge.expected
  rw [hps, if_pos, (hall e he).2]
  · rfl
  · rw [List.all_eq_true]
    intro x hx
    simpa using (hall x hx).1

/-- **C58.** Fragments are made one after the other, each by any calls that add samples to tracks and any
delays, after anything that was written before (`pre`, with the movie), and the file is written; then it is
opened, where `s` are the sample tables that opening `pre` gives, without samples. For every track, the
samples are exactly those added, in the order of the calls, and each is reported with the size, composition
offset and sync status it was added with, its decode time and duration, and a place in the file where its
bytes are.

Missing for the full claim: the restrictions in `TrackPlayable` (`c58_not_sizes`, `c58_not_sync`,
`c58_not_offsets`, `c58_not_first_time`) and those of C56 in `InRange`. -/
theorem c58_reported_partial (trex : Nat → Option Trex) (junk : Nat → UInt8) (memory : Nat → Nat → Nat → Junk)
    (pre : Bytes) (seq : Nat) (ts : List Track) (f : List Op) (gs : List (List Op))
    (h : InRange trex pre seq ts (f :: gs)) (hid : (ts.map Track.id).Nodup)
    (hp : ∀ i t, ts[i]? = some t → TrackPlayable i t (f :: gs)) (s : Tables)
    (hs : ∀ t ∈ ts, ∃ dref drefs, 1 ≤ dref ∧ dref ≤ drefs ∧ s t.id = some (Merge.opened [dref] drefs)) :
    ∃ file s', build junk (fresh pre seq ts) f gs = .ok file ∧ openFrom trex memory file pre.length s = .ok s' ∧
      ∀ i t, ts[i]? = some t → ∃ m, s' t.id = some m ∧
        Reported file m (allSamples i (f :: gs)) (allData i (f :: gs)) (timeline (segments i t.time (f :: gs)) []) := by
  have hb := build_eq trex junk gs f pre seq ts h
  generalize hfs : f :: gs = fs at *
  have hd : ∃ dref drefs : Nat → Nat, ∀ i t, ts[i]? = some t →
      1 ≤ dref i ∧ dref i ≤ drefs i ∧ s t.id = some (Merge.opened [dref i] (drefs i)) := by
    have : ∀ i : Nat, ∃ d : Nat × Nat, ∀ t : Track, ts[i]? = some t → 1 ≤ d.1 ∧ d.1 ≤ d.2 ∧ s t.id = some (Merge.opened [d.1] d.2) := by
      intro i
      cases ht : ts[i]? with
      | none => exact ⟨(0, 0), by simp⟩
      | some t =>
        obtain ⟨a, b, h1, h2, h3⟩ := hs t (List.mem_of_getElem? ht)
        exact ⟨(a, b), by intro t' h'; injection h' with h'; subst h'; exact ⟨h1, h2, h3⟩⟩
    obtain ⟨d, hd⟩ := Classical.axiomOfChoice this
    exact ⟨fun i => (d i).1, fun i => (d i).2, hd⟩
  obtain ⟨dref, drefs, hd⟩ := hd
  have hfits : ∀ i t, ts[i]? = some t → Merge.Fits (piecesFrom i pre.length seq ts fs) := fun i t ht =>
    pieces_fits h (List.getElem?_eq_some_iff.1 ht).1 (hp i t ht).calls
  obtain ⟨s', m1, m2⟩ := merge_all memory fs pre seq ts s dref drefs (fun _ => []) (fun _ => []) none h hid (by simp)
    (fun i t ht => by
      obtain ⟨h1, h2, h3⟩ := hd i t ht
      refine ⟨(hp i t ht).index, ⟨h1, h2⟩, ⟨_, h3, Merge.rep_opened _ _⟩, hfits i t ht, ⟨Nat.zero_le _, fun _ => (hp i t ht).start⟩⟩)
  refine ⟨_, s', hb, ?_, fun i t ht => ?_⟩
  · unfold openFrom
    have hc := count_le trex fs pre seq ts h
    rw [scan_eq trex fs pre seq ts _ h (by rw [List.length_append]; omega), bind_ok]
    exact m1
  · obtain ⟨m, hm, R⟩ := m2 i t ht
    rw [List.nil_append] at R
    refine ⟨m, hm, ?_⟩
    have hps := pieces_samples i fs pre.length seq ts
    have hent : (samplesOf (piecesFrom i pre.length seq ts fs)).map (·.2) = allSamples i fs := by
      rw [samples_entries, hps]
    have hdat := samples_data i fs pre seq ts [] h
    rw [List.append_nil] at hdat
    have hl1 : (allSamples i fs).length = (samplesOf (piecesFrom i pre.length seq ts fs)).length := by
      rw [← hent, List.length_map]
    have hl2 : (allData i fs).length = (samplesOf (piecesFrom i pre.length seq ts fs)).length := by
      rw [← hdat, List.length_map]
    have hcount : (timeline (segments i t.time fs) []).length = (allSamples i fs).length := by
      rw [R.count, ← hps, Merge.ents]
    refine ⟨by omega, hcount.symm, ?_, ?_⟩
    · rw [(Merge.sizesInv_rep R.sizes).count, List.length_map, ← R.count, hcount]
    · intro n e b d he hbn hdn
      rw [← hent, List.getElem?_map] at he
      cases hx : (samplesOf (piecesFrom i pre.length seq ts fs))[n]? with
      | none => simp [hx] at he
      | some x =>
        rw [hx] at he
        simp only [Option.map_some, Option.some.injEq] at he
        subst he
        rw [← hdat, List.getElem?_map, hx] at hbn
        simp only [Option.map_some, Option.some.injEq] at hbn
        have he : x.2 ∈ allSamples i fs := by
          rw [← hent]
          exact List.mem_map.2 ⟨x, List.mem_of_getElem? hx, rfl⟩
        refine ⟨x.1, ?_, hbn⟩
        rw [R.info (hfits i t ht) ?_ hx hdn ((hp i t ht).durations d (List.mem_of_getElem? hdn))]
        · exact congrArg Res.ok (expected_eq hps _ n x.1 he d)
        · have h1 := timeline_sum i fs t.time [] (Nat.zero_le _)
          have h2 := h.time i t ht
          omega

/-! ## Fragments start at their decode times -/

theorem timeline_prefix : ∀ (gs : List (Nat × List Samples)) {P Q : List Nat}, Q ≠ [] →
    ∃ Q', timeline gs (P ++ Q) = P ++ Q' := by
  intro gs
  induction gs with
  | nil => intro P Q _; exact ⟨Q, rfl⟩
  | cons g gs ih =>
    intro P Q hQ
    obtain ⟨d, hg⟩ : ∃ d, Q.getLast? = some d := by
      cases hg : Q.getLast? with
      | none => rw [List.getLast?_eq_none_iff] at hg; exact absurd hg hQ
      | some d => exact ⟨d, rfl⟩
    have e : timeline (g :: gs) (P ++ Q) = timeline gs (P ++ (Q.dropLast ++ [d + (g.1 - (P ++ Q).sum)] ++
        g.2.flatMap fun s => s.wanted.map Entry.duration)) := by
      show timeline gs _ = _
      unfold Merge.lengthen
      dsimp only
      rw [List.getLast?_append, hg]
      dsimp only [Option.some_or]
      rw [List.dropLast_append_of_ne_nil hQ]
      simp only [List.append_assoc]
    rw [e]
    exact ih (by simp)

theorem timeline_length : ∀ (gs : List (Nat × List Samples)) (D : List Nat),
    (timeline gs D).length = D.length + ((gs.flatMap (·.2)).flatMap Samples.wanted).length := by
  intro gs
  induction gs with
  | nil => intro D; rfl
  | cons g gs ih =>
    intro D
    show (timeline gs _).length = _
    rw [ih, List.length_append, Merge.lengthen_length, List.flatMap_cons, List.flatMap_append, List.length_append]
    have : (g.2.flatMap fun s => s.wanted.map Entry.duration).length = (g.2.flatMap Samples.wanted).length := by
      rw [← List.map_flatMap, List.length_map]
    omega

theorem segments_time (i : Nat) : ∀ (fs : List (List Op)) (time : Nat) (D : List Nat), D.sum ≤ time →
    (D = [] → ∀ g, (segments i time fs).head? = some g → g.1 = 0) → (∀ s ∈ fs.flatMap (adds i), s.wanted ≠ []) →
    ∀ (A B : List (Nat × List Samples)) (g : Nat × List Samples), segments i time fs = A ++ g :: B →
    ((timeline A D).sum ≤ g.1 ∧ (timeline A D = [] → g.1 = 0)) ∧ ∃ s ∈ g.2, s.wanted ≠ [] := by
  intro fs
  induction fs with
  | nil => intro time D _ _ _ A B g h; simp [segments] at h
  | cons f fs ih =>
    intro time D hD h0 hw A B g h
    rw [segments] at h h0
    by_cases hne : adds i f = []
    · rw [if_pos hne] at h h0
      exact ih _ D (by omega) h0 (fun s hs => hw s (by rw [List.flatMap_cons]; exact List.mem_append_right _ hs)) A B g h
    · rw [if_neg hne] at h h0
      have hz : D = [] → time + delays f = 0 := fun hd => h0 hd _ rfl
      obtain ⟨s, hs⟩ : ∃ s, s ∈ adds i f := by
        cases hl : adds i f with
        | nil => exact absurd hl hne
        | cons a l => exact ⟨a, by simp⟩
      have hs' := hw s (by rw [List.flatMap_cons]; exact List.mem_append_left _ hs)
      cases A with
      | nil =>
        injection h with h1 h2
        subst h1
        exact ⟨⟨by show D.sum ≤ time + delays f; omega, hz⟩, s, hs, hs'⟩
      | cons a A =>
        injection h with h1 h2
        subst h1
        have hdur : ((adds i f).flatMap fun s => s.wanted.map Entry.duration) ≠ [] := by
          intro hc
          rw [List.flatMap_eq_nil_iff] at hc
          exact hs' (by simpa using hc s hs)
        refine ih _ (Merge.lengthen D (some (time + delays f)) ++
          (adds i f).flatMap fun s => s.wanted.map Entry.duration) ?_ ?_
          (fun s hs => hw s (by rw [List.flatMap_cons]; exact List.mem_append_right _ hs)) A B g h2
        · rw [List.sum_append, lengthen_eq (by omega) hz, durations_sum]
          exact Nat.le_refl _
        · intro hc
          exact absurd (List.append_eq_nil_iff.1 hc).2 hdur

/-- In the durations of C58, each fragment starts at the decode time that was reached when it was made: the
first sample of it has that decode time. -/
theorem c58_decode_time {trex : Nat → Option Trex} {pre : Bytes} {seq : Nat} {ts : List Track} {fs : List (List Op)}
    (h : InRange trex pre seq ts fs) {i : Nat} {t : Track} (hp : TrackPlayable i t fs)
    (A B : List (Nat × List Samples)) (time : Nat) (calls : List Samples)
    (hs : segments i t.time fs = A ++ (time, calls) :: B) :
    startOf (timeline (segments i t.time fs) []) ((A.flatMap (·.2)).flatMap Samples.wanted).length = time := by
  obtain ⟨⟨h1, h2⟩, s, hs1, hs2⟩ := segments_time i fs t.time [] (Nat.zero_le _) (fun _ => hp.start)
    (fun s hs => wanted_ne (calls_good h hs)) A B _ hs
  dsimp only at h1 h2 hs1
  have hl := timeline_length A []
  have e : timeline (A ++ (time, calls) :: B) [] = timeline B (Merge.lengthen (timeline A []) (some time) ++
      calls.flatMap fun s => s.wanted.map Entry.duration) := by
    unfold timeline
    rw [List.foldl_append, List.foldl_cons]
  have hne : (calls.flatMap fun s => s.wanted.map Entry.duration) ≠ [] := by
    intro hc
    rw [List.flatMap_eq_nil_iff] at hc
    exact hs2 (by simpa using hc s hs1)
  obtain ⟨Q, hq⟩ := timeline_prefix B (P := Merge.lengthen (timeline A []) (some time)) hne
  rw [hs, e, hq]
  unfold startOf
  rw [List.length_nil, Nat.zero_add] at hl
  rw [← hl, List.take_left' (Merge.lengthen_length _ _), lengthen_eq h1 h2]

/-! ## A movie with one track and one fragment -/

/-- What opening does with it. -/
theorem open_single {trex : Nat → Option Trex} (junk : Nat → UInt8) (memory : Nat → Nat → Nat → Junk) {pre : Bytes} {seq : Nat}
    {t : Track} {f : List Op} (h : InRange trex pre seq [t] [f]) (hf : adds 0 f ≠ []) {s : Tables} {m : Table}
    (hs : s t.id = some m) :
    ∃ file, build junk (fresh pre seq [t]) f [] = .ok file ∧ openFrom trex memory file pre.length s =
      (Merge.mergeFragment (fragOf (pre.length + (fragMoof pre.length seq [t] f).length + 8) (trafOf f 0 t)
        (memory pre.length 0)) m).bind fun r =>
        match r.2 with
        | some e => .err e
        | none => .ok (s.set t.id r.1) := by
  refine ⟨_, build_eq trex junk [] f pre seq [t] h, ?_⟩
  have one := h.one
  obtain ⟨h1, h2⟩ := moof_length one
  have hroom := one.room
  unfold openFrom
  have hc := count_le trex [f] pre seq [t] h
  rw [scan_eq trex [f] pre seq [t] _ h (by rw [List.length_append]; omega), bind_ok]
  have hr : (trafOf f 0 t).runs ≠ [] := by
    intro hc
    apply hf
    rw [← laid_adds 0 f 0]
    simpa [trafOf] using hc
  have hfit : Traf.Fits (trafOf f 0 t) := (trafOf_ok one.frag one.ids (i := 0) rfl).resolve_left hr
  have ho := one.ids t (by simp)
  have hb : pre.length + (fragMoof pre.length seq [t] f).length + 8 < 2 ^ 64 := by omega
  unfold FragSeq.merge
  rw [moofsOf, moofsOf]
  generalize pre.length + (fragMoof pre.length seq [t] f).length + 8 = b at hb
  have hk : kept ([t].mapIdx (trafOf f)) = [trafOf f 0 t] := by
    show List.filter _ [trafOf f 0 t] = _
    rw [List.filter_cons_of_pos (by simpa using hr)]
    rfl
  have e : (moofBack seq b ([t].mapIdx (trafOf f))).trafs = [some (back (rebase b (trafOf f 0 t)))] := by
    unfold moofBack
    dsimp only
    rw [hk]
    rfl
  rw [List.map_cons, FragSeq.mergeLoop]
  have e1 : (toMerge (pre.length, moofBack seq b ([t].mapIdx (trafOf f)))).mfhd = some seq := rfl
  rw [e1]
  dsimp only [toMerge]
  rw [e, mergeTrafs_cons trex memory pre.length b hb hfit (by have := ho.pos; show t.id ≠ 0; omega) ho.known hs]
  cases Merge.mergeFragment (fragOf b (trafOf f 0 t) (memory pre.length 0)) m with
  | ub => rfl
  | err e => rfl
  | ok r => cases hr : r.2 <;> simp only [bind_ok, hr] <;> rfl

/-! ## A movie that meets the conditions -/

namespace Example

def fromStart : List Track := [⟨⟨1, 0, 0, 0⟩, 1, 0⟩, ⟨⟨1, 1024, 0, 0⟩, 7, 0⟩]

theorem fromStart_inRange : InRange trex (List.replicate 100 0) 1 fromStart frags := by
  refine ⟨inRange.ops, by decide +kernel, by decide, ?_, by decide⟩
  intro i t ht
  match i with
  | 0 => cases ht; decide +kernel
  | 1 => cases ht; decide +kernel
  | i + 2 => simp [fromStart] at ht

theorem playable : ∀ i t, fromStart[i]? = some t → TrackPlayable i t frags := by
  intro i t ht
  match i with
  | 0 =>
    cases ht
    exact ⟨rfl, ⟨.inl (by intro s h; cases h; decide), by decide, .inl (by intro s h; cases h; decide)⟩,
      by (intro g h; cases h; rfl), by decide⟩
  | 1 =>
    cases ht
    exact ⟨rfl, ⟨.inr (by decide), by decide, .inr (by decide)⟩, by (intro g h; cases h; rfl), by decide⟩
  | i + 2 => simp [fromStart] at ht

/-- The track with ID 7 gets two samples in each of two fragments; the second fragment is delayed by 50, so
the second sample lasts 1050 instead of 1000. -/
example (junk : Nat → UInt8) (memory : Nat → Nat → Nat → Junk) (s : Tables) (h1 : s 1 = some (Merge.opened [1] 1))
    (h7 : s 7 = some (Merge.opened [1] 1)) :
    ∃ file s' m place, build junk (fresh (List.replicate 100 0) 1 fromStart) (frags.headD []) frags.tail = .ok file ∧
      openFrom trex memory file 100 s = .ok s' ∧ s' 7 = some m ∧ m.stsz.count = 4 ∧
      info m 2 = .ok ⟨place, 2, 1024, 0, 1050, true, 0xF8, 0, 1⟩ ∧ (file.drop place).take 2 = [9, 10] := by
  obtain ⟨file, s', e1, e2, e3⟩ := c58_reported_partial trex junk memory (List.replicate 100 0) 1 fromStart _ _ fromStart_inRange
    (by decide) playable s (by
      intro t ht
      simp only [fromStart, List.mem_cons, List.not_mem_nil, or_false] at ht
      rcases ht with rfl | rfl
      · exact ⟨1, 1, by decide, by decide, h1⟩
      · exact ⟨1, 1, by decide, by decide, h7⟩)
  obtain ⟨m, e4, -, -, e5, e6⟩ := e3 1 _ rfl
  obtain ⟨place, e7, e8⟩ := e6 1 ⟨1000, 2, 0, 0⟩ [9, 10] 1050 (by decide) (by decide) (by decide)
  exact ⟨file, s', m, place, e1, e2, e4, e5.trans (by decide), e7.trans rfl, e8⟩

example : segments 1 0 frags = [(0, [audio]), (2074, [audio])] := by decide

/-! ## What the code does otherwise -/

/-- A track that starts at `time`. -/
def track (time : Nat) : Track := ⟨⟨1, 0, 0, 0⟩, 1, time⟩

/-- What is reported about sample `n` of the track after one fragment is written and the file is opened; memory
that was not set holds `x`. -/
def reported (x time : Nat) (ops : List Op) (n : Nat) : Res Info :=
  (build (fun _ => 0) (fresh [] 1 [track time]) ops []).bind fun file =>
  (openFrom trex (fun _ _ _ => Merge.Example.junk x) file 0 fun id => if id = 1 then some (Merge.opened [1] 1) else none).bind fun s =>
  match s 1 with
  | none => .err .notFound
  | some m => info m n

/-- The same by the table that the fragment gives. -/
def merged (x time : Nat) (ops : List Op) (n : Nat) : Res Info :=
  (Merge.mergeFragment (fragOf ((fragMoof 0 1 [track time] ops).length + 8) (trafOf ops 0 (track time))
    fun _ => Merge.Example.junk x) (Merge.opened [1] 1)).bind fun r =>
  match r.2 with
  | some e => .err e
  | none => info r.1 n

theorem reported_eq (x : Nat) {time : Nat} {ops : List Op} (h : InRange trex [] 1 [track time] [ops]) (hf : adds 0 ops ≠ [])
    (n : Nat) : reported x time ops n = merged x time ops n := by
  obtain ⟨file, e1, e2⟩ := open_single (fun _ => 0) (fun _ _ _ => Merge.Example.junk x) h hf
    (s := fun id => if id = 1 then some (Merge.opened [1] 1) else none) (m := Merge.opened [1] 1) rfl
  unfold reported
  rw [e1, bind_ok]
  rw [List.length_nil] at e2
  rw [e2]
  unfold merged
  rw [Nat.zero_add]
  cases Merge.mergeFragment _ (Merge.opened [1] 1) with
  | ub => rfl
  | err e => rfl
  | ok r =>
    simp only [bind_ok]
    cases r.2 <;> rfl

/-- Samples of the given sizes, the first of which are sync samples, with composition offsets. -/
def call (sizes : List Nat) (sync : Option (List Nat)) (offsets : Option (List Nat)) : Samples :=
  ⟨List.replicate sizes.sum 7, sizes.length, [10], sizes, offsets, sync, none, []⟩

theorem ops_inRange {time : Nat} {a b : Samples} (ha : a.Good) (hb : b.Good)
    (hr : room [track time] [.add 0 a, .add 0 b] < 2 ^ 31)
    (ht : time + spent 0 [.add 0 a, .add 0 b] < 2 ^ 32) :
    InRange trex [] 1 [track time] [[.add 0 a, .add 0 b]] := by
  refine ⟨?_, by simpa using hr, by simp, ?_, ?_⟩
  · intro f hf op ho
    simp only [List.mem_cons, List.not_mem_nil, or_false] at hf
    subst hf
    simp only [List.mem_cons, List.not_mem_nil, or_false] at ho
    rcases ho with rfl | rfl
    · exact ⟨by simp, ha⟩
    · exact ⟨by simp, hb⟩
  · intro i t hi
    match i with
    | 0 => cases hi; simpa [track, delays] using ht
    | i + 1 => simp at hi
  · intro t ht
    simp only [List.mem_cons, List.not_mem_nil, or_false] at ht
    subst ht
    exact ⟨Nat.one_pos, by simp [track], by simp [track], rfl⟩

end Example

open Example

theorem good_55 : (call [5, 5] none none).Good :=
  ⟨by decide, .inr rfl, .inl rfl, by (intro l h; cases h), by (intro l h; cases h), rfl,
    ⟨by decide, by decide, by (intro l h; cases h)⟩, by decide⟩

theorem good_7 : (call [7] none none).Good :=
  ⟨by decide, .inr rfl, .inl rfl, by (intro l h; cases h), by (intro l h; cases h), rfl,
    ⟨by decide, by decide, by (intro l h; cases h)⟩, by decide⟩

/-- Two samples of size 5 and then one of size 7 are added to a fragment: after opening the file that was
written, the size reported for the first is 0, and that of the second whatever was in memory (see C54). -/
theorem c58_not_sizes :
    (allSamples 0 [[.add 0 (call [5, 5] none none), .add 0 (call [7] none none)]]).map Entry.size = [5, 5, 7] ∧
    ((reported 77 0 [.add 0 (call [5, 5] none none), .add 0 (call [7] none none)] 1).bind fun i => .ok i.size) = .ok 0 ∧
    ((reported 77 0 [.add 0 (call [5, 5] none none), .add 0 (call [7] none none)] 2).bind fun i => .ok i.size) = .ok 77 ∧
    ((reported 78 0 [.add 0 (call [5, 5] none none), .add 0 (call [7] none none)] 2).bind fun i => .ok i.size) = .ok 78 := by
  have h : InRange trex [] 1 [track 0] [[.add 0 (call [5, 5] none none), .add 0 (call [7] none none)]] :=
    ops_inRange good_55 good_7 (by decide +kernel) (by decide +kernel)
  refine ⟨by decide, ?_, ?_, ?_⟩
  all_goals
    rw [reported_eq _ h (by simp [adds])]
    decide +kernel

theorem good_sync : (call [5, 6] (some [1]) none).Good :=
  ⟨by decide, .inr rfl, .inl rfl, by (intro l h; cases h), by (intro l h; cases h; decide), rfl,
    ⟨by decide, by decide, by (intro l h; cases h)⟩, by decide⟩

/-- A sync sample and one that is not, then another sync sample: the last is reported as not being a sync
sample. -/
theorem c58_not_sync :
    (allSamples 0 [[.add 0 (call [5, 6] (some [1]) none), .add 0 (call [7] none none)]]).map isSync = [true, false, true] ∧
    ((reported 0 0 [.add 0 (call [5, 6] (some [1]) none), .add 0 (call [7] none none)] 3).bind fun i => .ok i.sync) =
      .ok false := by
  have h : InRange trex [] 1 [track 0] [[.add 0 (call [5, 6] (some [1]) none), .add 0 (call [7] none none)]] :=
    ops_inRange good_sync good_7 (by decide +kernel) (by decide +kernel)
  refine ⟨by decide, ?_⟩
  rw [reported_eq _ h (by simp [adds])]
  decide +kernel

theorem good_offset : (call [7] none (some [8])).Good :=
  ⟨by decide, .inr rfl, .inl rfl, by (intro l h; cases h; rfl), by (intro l h; cases h), rfl,
    ⟨by decide, by decide, by (intro l h; cases h; decide)⟩, by decide⟩

/-- A sample without composition offset, then one with offset 8: the offset is reported for the first. -/
theorem c58_not_offsets :
    (allSamples 0 [[.add 0 (call [7] none none), .add 0 (call [7] none (some [8]))]]).map Entry.offset = [0, 8] ∧
    ((reported 0 0 [.add 0 (call [7] none none), .add 0 (call [7] none (some [8]))] 1).bind fun i => .ok i.offset) =
      .ok 8 ∧
    ((reported 0 0 [.add 0 (call [7] none none), .add 0 (call [7] none (some [8]))] 2).bind fun i => .ok i.offset) =
      .ok 0 := by
  have h : InRange trex [] 1 [track 0] [[.add 0 (call [7] none none), .add 0 (call [7] none (some [8]))]] :=
    ops_inRange good_7 good_offset (by decide +kernel) (by decide +kernel)
  refine ⟨by decide, ?_, ?_⟩
  all_goals
    rw [reported_eq _ h (by simp [adds])]
    decide +kernel

/-- A track whose samples so far are in another file, so that its first fragment here starts later than 0:
opening the file goes wrong. -/
theorem c58_not_first_time {trex : Nat → Option Trex} (junk : Nat → UInt8) (memory : Nat → Nat → Nat → Junk) {pre : Bytes}
    {seq : Nat} {t : Track} {f : List Op} (h : InRange trex pre seq [t] [f]) (hf : adds 0 f ≠ []) (ht : 0 < t.time)
    {s : Tables} (hs : s t.id = some (Merge.opened [1] 1)) :
    ∃ file, build junk (fresh pre seq [t]) f [] = .ok file ∧ openFrom trex memory file pre.length s = .ub := by
  obtain ⟨file, e1, e2⟩ := open_single junk memory h hf hs
  refine ⟨file, e1, ?_⟩
  rw [e2]
  have h0 : Stts.totalDuration (Merge.opened [1] 1).stts.entries = 0 := rfl
  have hstart : Merge.startAt (t.time + delays f) (Merge.opened [1] 1) = .ub := by
    unfold Merge.startAt
    rw [h0, if_neg (by omega), if_pos (by omega)]
    rfl
  have : ∀ b j, Merge.mergeFragment (fragOf b (trafOf f 0 t) j) (Merge.opened [1] 1) = .ub := by
    intro b j
    unfold Merge.mergeFragment Merge.Step.andThen
    have e : (fragOf b (trafOf f 0 t) j).time = some (t.time + delays f) := rfl
    rw [e]
    dsimp only
    rw [hstart]
    rfl
  rw [this]
  rfl

example : InRange trex [] 1 [track 5] [[.add 0 (call [5, 5] none none), .add 0 (call [7] none none)]] :=
  ops_inRange good_55 good_7 (by decide +kernel) (by decide +kernel)

end Verif.FragFile
