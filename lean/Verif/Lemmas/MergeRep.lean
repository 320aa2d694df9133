import Verif.Lemmas.Merge
import Verif.Props.C11

/-! # The invariant of C54: the sample table stands for the runs merged so far -/

namespace Verif.Merge

open Traf (Entry Run Tfhd has)

/-- All samples of some runs. -/
abbrev ents (H : List Piece) : List Entry := H.flatMap Piece.entries

/-- The table holds the samples of the runs `H`, with durations `D`. -/
structure Rep (m : Table) (dref drefs : Nat) (H : List Piece) (D : List Nat) : Prop where
  times : expand m.stts.entries = D
  pos : ∀ e ∈ m.stts.entries, 0 < e.1
  found : m.stts.found = false
  count : D.length = (ents H).length
  sizes : SizesInv m.stsz ((ents H).map Entry.size)
  chunks : Stco.Inv m.stco (H.map Piece.place)
  stsc : Stsc.Recorded m.stsc.entries (H.map fun p => (p.entries.length, 1))
  cache : m.stsc.foundFirst = 0
  offs : OffsInv (ents H).length m.ctts ((ents H).map Entry.offset) (H.any Piece.offs)
  sync : Stss.Inv ⟨(ents H).length, m.stss⟩ ((ents H).map isSync)
  syncSome : m.stss ≠ none → ∃ p ∈ H, ∃ e ∈ p.entries, isSync e = false
  pads : PadsInv (ents H).length m.padb ((ents H).map padding)
  deps : Sdtp.StRep ⟨(ents H).length, m.sdtp⟩ ((ents H).map depByte)
  stsd : m.stsd = [dref]
  drefs : m.drefs = drefs

theorem rep_opened (dref drefs : Nat) : Rep (opened [dref] drefs) dref drefs [] [] where
  times := rfl
  pos := by intro e he; cases he
  found := rfl
  count := rfl
  sizes := Or.inr ⟨rfl, [0], rfl, rfl, (by decide : 4 < 4294967296), Or.inl ⟨rfl, rfl⟩⟩
  chunks := ⟨⟨rfl, by simp, by simp⟩, rfl⟩
  stsc := ⟨rfl, by intro i a b ha; simp [opened, Stsc.ofEntries] at ha,
    fun _ => ⟨by simp [opened, Stsc.ofEntries], by simp [opened, Stsc.ofEntries], by simp [opened, Stsc.ofEntries],
      by simp [opened, Stsc.ofEntries]⟩, by simp [opened, Stsc.ofEntries], by simp [opened, Stsc.ofEntries]⟩
  cache := rfl
  offs := ⟨rfl, rfl, by simp⟩
  sync := ⟨rfl, by simp [opened], by simp [opened]⟩
  syncSome := by simp [opened]
  pads := ⟨[], ⟨rfl, by simp [opened]⟩, rfl, by simp⟩
  deps := ⟨rfl, by simp, rfl⟩
  stsd := rfl
  drefs := rfl

/-! ## Limits of a part -/

theorem Fits.left {A B : List Piece} (h : Fits (A ++ B)) : Fits A where
  nonempty := fun p hp => h.nonempty p (by simp [hp])
  data := fun p hp => h.data p (by simp [hp])
  samples := by
    have := h.samples
    rw [List.flatMap_append, List.length_append] at this
    omega
  runs := by
    have := h.runs
    rw [List.length_append] at this
    omega
  zero := fun p hp => h.zero p (by simp [hp])
  offs := by
    rcases h.offs with h | h
    · left
      intro p hp
      refine h p ?_
      rw [List.head?_append, hp]; rfl
    · exact Or.inr fun p hp => h p (by simp [hp])
  sync := (List.pairwise_append.mp h.sync).1
  sizes := by
    rcases h.sizes with h | h
    · left
      intro p hp
      refine h p ?_
      rw [List.head?_append, hp]; rfl
    · right
      intro a ha b hb
      refine h a ?_ b ?_ <;> rw [List.flatMap_append] <;> simp only [List.mem_append]
      · exact Or.inl ha
      · exact Or.inl hb

/-! ## Durations -/

theorem pos_addSample {es : List (Nat × Nat)} (h : ∀ e ∈ es, 0 < e.1) (hl : (expand es).length + 1 < 4294967296)
    (d : Nat) : ∀ e ∈ Stts.addSample es d, 0 < e.1 := by
  unfold Stts.addSample
  cases hg : es.getLast? with
  | none =>
    intro e he
    rcases List.mem_append.mp he with he | he
    · exact h e he
    · simp at he; subst he; exact Nat.one_pos
  | some p =>
    obtain ⟨c, d'⟩ := p
    dsimp only
    have hmem := List.mem_of_getLast? hg
    have hc : c ≤ (expand es).length := by
      have := getLast?_eq_some_iff_append hg
      rw [this, expand_append]
      simp [expand]
    split
    · intro e he
      rcases List.mem_append.mp he with he | he
      · exact h e he
      · simp at he; subst he; exact Nat.one_pos
    · intro e he
      rcases List.mem_append.mp he with he | he
      · exact h e (List.dropLast_subset _ he)
      · simp only [List.mem_singleton] at he; subst he
        dsimp only
        omega

theorem pos_foldl : ∀ (ds : List Nat) (es : List (Nat × Nat)), (∀ e ∈ es, 0 < e.1) →
    (expand es).length + ds.length < 4294967296 → ∀ e ∈ ds.foldl Stts.addSample es, 0 < e.1 := by
  intro ds
  induction ds with
  | nil => intro es h _; exact h
  | cons d ds ih =>
    intro es h hl
    simp only [List.length_cons] at hl
    have he := Stts.expand_addSample (es := es) (by omega) d
    exact ih _ (pos_addSample h (by omega) d) (by rw [he]; simp; omega)

theorem noOverflow {es : List (Nat × Nat)} (hp : ∀ e ∈ es, 0 < e.1)
    (hc : (expand es).length + 1 < 4294967296) (hs : (expand es).sum < 4294967296) : Stts.NoOverflow es := by
  refine ⟨hc, ?_, ?_⟩
  · intro e he
    have h1 := Stts.sum_ge_run es e he
    have h2 := hp e he
    have : 1 * e.2 ≤ e.1 * e.2 := Nat.mul_le_mul_right _ h2
    omega
  · intro e he
    have := Stts.sum_ge_run es e he
    omega

theorem batch_each (ds : List Nat) (h : ds ≠ []) : Stts.batchDurations ds.length ds = ds := by
  unfold Stts.batchDurations
  split
  · next h1 =>
    obtain ⟨x, rfl⟩ := List.length_eq_one_iff.mp h1
    rfl
  · rw [List.take_length]

/-! ## One run -/

theorem Rep.run {m : Table} {dref drefs : Nat} {H : List Piece} {D : List Nat} (R : Rep m dref drefs H D)
    (hd1 : 1 ≤ dref) (hd2 : dref ≤ drefs) (j : Junk) {h : Tfhd} (hdesc : h.descIndex = 1) (r : Run)
    (hf : Fits (H ++ [piece h r])) :
    ∃ m', mergeRun j h r m = .ok (m', none) ∧
      Rep m' dref drefs (H ++ [piece h r]) (D ++ (piece h r).entries.map Entry.duration) := by
  have hne := hf.nonempty (piece h r) (by simp)
  have hzero := hf.zero (piece h r) (by simp)
  have hsm := hf.samples
  have hrn := hf.runs
  have hoffs := hf.offs
  have hsizes := hf.sizes
  have hsync := (List.pairwise_append.mp hf.sync).2.2
  obtain ⟨place, es, hp⟩ : ∃ p es, Traf.mergeRun h r = .ok (p, es) := by
    unfold piece at hne
    cases hr : Traf.mergeRun h r with
    | ok v => exact ⟨v.1, v.2, rfl⟩
    | err e => rw [hr] at hne; exact absurd rfl hne
    | ub => rw [hr] at hne; exact absurd rfl hne
  have hpc : piece h r = ⟨place, es, has r.flags 0x800⟩ := by unfold piece; rw [hp]; rfl
  rw [hpc] at hne hzero hsm hrn hoffs hsizes hsync ⊢
  clear hf hpc
  simp only at hne hzero
  generalize ho : has r.flags 0x800 = offs at *
  simp only [List.flatMap_append, List.flatMap_cons, List.flatMap_nil, List.append_nil, List.length_append,
    List.length_singleton] at hsm hrn hsizes ⊢
  have hpos := List.length_pos_iff.mpr hne
  have hsm : (ents H).length + es.length + 1 < 1073739776 := hsm
  have hE : ∀ {β : Type} (f : Entry → β), (ents H).map f ++ es.map f = (ents H ++ es).map f := by
    intro β f; rw [List.map_append]
  have hcnt : m.stsz.count = (ents H).length := by rw [(sizesInv_rep R.sizes).count]; simp
  -- durations
  obtain ⟨es1, a1, a2, a3⟩ := Stts.addSamples_ok (es := m.stts.entries) (n := es.length)
    (durations := es.map Entry.duration) (Or.inr ⟨by simp, by simpa using hne⟩)
    (by rw [R.times, R.count]; omega)
  have hb : Stts.batchDurations es.length (es.map Entry.duration) = es.map Entry.duration := by
    have := batch_each (es.map Entry.duration) (by simpa using hne)
    rwa [List.length_map] at this
  rw [hb] at a2 a3
  rw [R.times] at a3
  have hpos1 : ∀ e ∈ es1, 0 < e.1 := by
    rw [a2]
    exact pos_foldl _ _ R.pos (by rw [R.times, R.count, List.length_map]; omega)
  -- composition offsets
  obtain ⟨s2, b1, b2⟩ := offs_add ((ents H).map Entry.offset) m.ctts (H.any Piece.offs) es offs
    (by rw [List.length_map]; exact R.offs) hne (by rw [List.length_map]; omega) hzero (by
      intro ho'
      subst ho'
      rcases hoffs with hoffs | hoffs
      · cases H with
        | nil => exact Or.inr rfl
        | cons p H =>
          left
          have := hoffs p rfl
          simp [this]
      · have := hoffs ⟨place, es, true⟩ (by simp)
        cases this)
  -- sync samples
  obtain ⟨s3, c1, c2, c3⟩ := sync_add j.sync ((ents H).map isSync) m.stss es
    (by rw [List.length_map]; exact R.sync) (by rw [List.length_map]; omega) (by
      intro hs
      obtain ⟨p, hp1, hp2⟩ := R.syncSome hs
      exact hsync p hp1 ⟨place, es, offs⟩ (by simp) hp2)
  -- padding
  obtain ⟨s4, d1, d2⟩ := pads_add ((ents H).map padding) m.padb es
    (by rw [List.length_map]; exact R.pads) (by rw [List.length_map]; omega)
  -- sizes
  obtain ⟨t5, e1, e2, e3⟩ := sizes_add j.sizes R.sizes (es.map Entry.size) (by simpa using hne)
    (by rw [List.length_map, List.length_map]; omega) (by
      rcases hsizes with hsizes | hsizes
      · cases H with
        | nil => exact Or.inl rfl
        | cons p H =>
          right; left
          obtain ⟨a, ha, b, hb, hab⟩ := hsizes p rfl
          exact ⟨a.size, List.mem_map_of_mem (by simp [ha]), b.size, List.mem_map_of_mem (by simp [hb]), hab⟩
      · right; right
        rw [hE]
        intro a ha b hb
        obtain ⟨x, hx, rfl⟩ := List.mem_map.mp ha
        obtain ⟨y, hy, rfl⟩ := List.mem_map.mp hb
        exact hsizes x hx y hy)
  rw [List.length_map] at e1 e2
  rw [List.length_map] at e2
  -- chunk offset
  obtain ⟨t6, f1, f2⟩ := Stco.addOffset_ok j.offsets R.chunks place (by rw [List.length_map]; omega)
  have hstco : t6.count = (H.map fun p : Piece => (p.entries.length, 1)).length + 1 := by
    rw [f2.count]; simp
  -- dependencies
  obtain ⟨s8, g1, g2⟩ := deps_add j.deps ((ents H).map depByte) m.sdtp es (t5.count)
    (by rw [List.length_map]; exact R.deps) (by rw [List.length_map]; omega)
  simp only [List.length_map] at b1 b2 c1 c2 d1 d2 g1 g2
  -- the steps
  let m' : Table :=
    { m with stts := { m.stts with entries := es1 }, ctts := s2.ctts, stss := s3.stss, padb := s4.padb,
             stsz := t5, stco := t6, sdtp := s8.sdtp, current := some dref, stsd := [dref],
             stsc := { m.stsc with entries := Stsc.setEntry m.stsc.entries t6.count es.length 1 } }
  have hdef : setDefault h.descIndex m = { m with current := some dref } := by
    unfold setDefault
    rw [hdesc, R.stsd]
    rfl
  have hadd : addReference j es.length place (es.map Entry.duration) (es.map Entry.size)
      (if offs then some (es.map Entry.offset) else none)
      (if es.any fun e => notSync e.flags then some (syncNumbers es) else none)
      (if es.any fun e => padOf e.flags ≠ 0 then some (es.map fun e => padOf e.flags) else none)
      { m with current := some dref } = .ok (m', none) := by
    unfold addReference
    dsimp only
    refine Eq.trans (andThen_ok (m' := m') ?_) ?_
    · unfold tableAdd
      rw [of_then (by dsimp only; rw [a1]; rfl)]
      rw [of_then (by dsimp only; rw [hcnt, b1]; rfl)]
      rw [of_then (by dsimp only; rw [hcnt, c1]; rfl)]
      rw [of_then (by dsimp only; rw [R.stsd]; rfl)]
      rw [of_then (by dsimp only; rw [hcnt, d1]; rfl)]
      rw [of_then (by dsimp only; rw [e1]; rfl)]
      rw [of_then (by dsimp only; rw [f1]; rfl)]
      rw [of_then (by dsimp only)]
      unfold Step.of
      dsimp only
      rw [g1]
      rfl
    · unfold Step.of
      dsimp only
      rw [if_neg]
      show ¬ (dref = 0 ∨ es.length = 0 ∨ dref > m.drefs)
      rw [R.drefs]
      omega
  have mk : ∀ sd, Sdtp.StRep ⟨(ents H).length + es.length, sd⟩ ((ents H).map depByte ++ es.map depByte) →
      Rep { m' with sdtp := sd } dref drefs (H ++ [⟨place, es, offs⟩]) (D ++ es.map Entry.duration) := by
    intro sd hsd
    have hents : ents (H ++ [⟨place, es, offs⟩]) = ents H ++ es := by simp [ents]
    refine ⟨a3, hpos1, R.found, ?_, ?_, ?_, ?_, R.cache, ?_, ?_, ?_, ?_, ?_, rfl, R.drefs⟩
    · rw [hents, List.length_append, List.length_append, R.count, List.length_map]
    · rw [hents, ← hE]; exact e3
    · rw [List.map_append]; exact f2
    · rw [List.map_append]
      have := Stsc.recorded_step R.stsc es.length 1
      show Stsc.Recorded (Stsc.setEntry m.stsc.entries t6.count es.length 1) _
      rw [hstco]
      exact this
    · rw [hents, ← hE, List.length_append, List.any_append]
      simpa using b2
    · rw [hents, ← hE, List.length_append]; exact c2
    · intro hs
      rcases c3 hs with hs | ⟨e, he, hes⟩
      · obtain ⟨p, hp1, hp2⟩ := R.syncSome hs
        exact ⟨p, by simp [hp1], hp2⟩
      · exact ⟨⟨place, es, offs⟩, by simp, e, he, hes⟩
    · rw [hents, ← hE, List.length_append]; exact d2
    · rw [hents, ← hE, List.length_append]; exact hsd
  unfold mergeRun
  rw [hp]
  dsimp only
  rw [ho, hdef, andThen_ok hadd]
  have hdeps : (es.map fun e => UInt8.ofNat (depOf e.flags)) = es.map depByte :=
    List.map_congr_left fun e _ => by unfold depByte; rw [depOf_eq]
  cases hany : (es.any fun e => depOf e.flags ≠ 0) with
  | false =>
    refine ⟨m', rfl, ?_⟩
    refine mk s8.sdtp ?_
    rw [any_dep es hany]; exact g2
  | true =>
    obtain ⟨s9, k1, k2⟩ := deps_set j.deps ((ents H).map depByte) s8.sdtp es hne
      (by rw [List.length_map]; exact g2) (by rw [List.length_map]; omega)
    rw [List.length_map] at k1 k2
    refine ⟨{ m' with sdtp := s9.sdtp }, ?_, mk s9.sdtp k2⟩
    rw [if_pos rfl, hdeps]
    unfold setDependency
    show Res.bind (Sdtp.tableSet j.deps ⟨t5.count, s8.sdtp⟩ _ _) _ = _
    rw [e2, k1]
    rfl

/-! ## Several runs -/

theorem Rep.runs {dref drefs : Nat} (hd1 : 1 ≤ dref) (hd2 : dref ≤ drefs) {h : Tfhd} (hdesc : h.descIndex = 1) :
    ∀ (rs : List (Junk × Run)) (m : Table) (H : List Piece) (D : List Nat), Rep m dref drefs H D →
      Fits (H ++ rs.map fun r => piece h r.2) →
      ∃ m', mergeRuns h rs m = .ok (m', none) ∧
        Rep m' dref drefs (H ++ rs.map fun r => piece h r.2)
          (D ++ (rs.map fun r => piece h r.2).flatMap fun p => p.entries.map Entry.duration) := by
  intro rs
  induction rs with
  | nil => intro m H D R _; exact ⟨m, rfl, by simpa using R⟩
  | cons r rs ih =>
    intro m H D R hf
    rw [List.map_cons, List.append_cons] at hf
    obtain ⟨m1, h1, R1⟩ := R.run hd1 hd2 r.1 hdesc r.2 hf.left
    obtain ⟨m2, h2, R2⟩ := ih m1 _ _ R1 hf
    refine ⟨m2, ?_, ?_⟩
    · unfold mergeRuns
      rw [andThen_ok h1]; exact h2
    · rw [List.map_cons, List.append_cons]
      simpa using R2

/-! ## The decode time of a fragment -/

theorem pos_extendLast {es es' : List (Nat × Nat)} {delta : Nat} (h : ∀ e ∈ es, 0 < e.1)
    (hl : (expand es).length + 1 < 4294967296) (he : Stts.extendLast es delta = .ok es') : ∀ e ∈ es', 0 < e.1 := by
  unfold Stts.extendLast at he
  cases hg : es.getLast? with
  | none => rw [hg] at he; cases he
  | some p =>
    obtain ⟨c, d⟩ := p
    rw [hg] at he
    dsimp only at he
    have hmem : (c, d) ∈ es := List.mem_of_getLast? hg
    have hc0 := h _ hmem
    have hex : (expand es).length = (expand es.dropLast).length + c := by
      have := getLast?_eq_some_iff_append hg
      conv => lhs; rw [this, expand_append]
      simp [expand]
    split at he
    · injection he with he
      subst he
      intro e he
      rcases List.mem_append.mp he with he | he
      · exact h e (List.dropLast_subset _ he)
      · simp only [List.mem_singleton] at he; subst he; exact hc0
    · next hc1 =>
      injection he with he
      subst he
      have hw : (c + 4294967295) % 4294967296 = c - 1 := by simp only at hc0; omega
      refine pos_addSample ?_ ?_ _
      · intro e he
        rcases List.mem_append.mp he with he | he
        · exact h e (List.dropLast_subset _ he)
        · simp only [List.mem_singleton] at he; subst he
          simp only at hc0 ⊢
          omega
      · rw [hw, expand_append]
        simp only [expand, List.flatMap_cons, List.flatMap_nil, List.append_nil, List.length_append,
          List.length_replicate]
        unfold expand at hex
        unfold expand at hl
        omega

theorem sum_snoc (l : List Nat) (x : Nat) : (l ++ [x]).sum = l.sum + x := by simp

theorem lengthen_sum (D : List Nat) (t : Option Nat) : D.sum ≤ (lengthen D t).sum := by
  unfold lengthen
  cases t with
  | none => exact Nat.le_refl _
  | some t =>
    dsimp only
    cases hg : D.getLast? with
    | none => exact Nat.le_refl _
    | some d =>
      dsimp only
      have := getLast?_eq_some_iff_append hg
      have e : D.sum = D.dropLast.sum + d := by conv => lhs; rw [this, sum_snoc]
      rw [sum_snoc]
      omega

theorem lengthen_length (D : List Nat) (t : Option Nat) : (lengthen D t).length = D.length := by
  unfold lengthen
  cases t with
  | none => rfl
  | some t =>
    dsimp only
    cases hg : D.getLast? with
    | none => rfl
    | some d =>
      dsimp only
      have : D ≠ [] := by intro e; subst e; simp at hg
      have := List.length_pos_iff.mpr this
      simp; omega

theorem Rep.start {m : Table} {dref drefs : Nat} {H : List Piece} {D : List Nat} (R : Rep m dref drefs H D)
    (t : Nat) (h1 : D.sum ≤ t) (h2 : D = [] → t = 0) (hlen : D.length + 1 < 4294967296)
    (hsum : (lengthen D (some t)).sum < 4294967296) :
    ∃ m', startAt t m = .ok (m', none) ∧ Rep m' dref drefs H (lengthen D (some t)) := by
  have hD := lengthen_sum D (some t)
  have htot : Stts.totalDuration m.stts.entries = D.sum := by
    rw [Stts.totalDuration_eq, R.times, Nat.mod_eq_of_lt (by omega)]
  unfold startAt
  rw [htot, if_neg (by omega)]
  by_cases heq : t = D.sum
  · rw [if_neg (by omega)]
    refine ⟨m, rfl, ?_⟩
    have : lengthen D (some t) = D := by
      unfold lengthen
      dsimp only
      cases hg : D.getLast? with
      | none => rfl
      | some d =>
        dsimp only
        rw [heq, Nat.sub_self, Nat.add_zero]
        exact (getLast?_eq_some_iff_append hg).symm
    rw [this]; exact R
  · rw [if_pos (by omega)]
    have hne : D ≠ [] := by
      intro e
      subst e
      have := h2 rfl
      simp at heq
      omega
    obtain ⟨d, hg⟩ : ∃ d, D.getLast? = some d := by
      cases hg : D.getLast? with
      | none => rw [List.getLast?_eq_none_iff] at hg; exact absurd hg hne
      | some d => exact ⟨d, rfl⟩
    have hl : lengthen D (some t) = D.dropLast ++ [d + (t - D.sum)] := by
      unfold lengthen
      simp only [hg]
    have hds : d + (t - D.sum) < 4294967296 := by
      rw [hl, sum_snoc] at hsum
      omega
    obtain ⟨es', k1, k2⟩ := Stts.expand_extendLast (es := m.stts.entries)
      (delta := (t - D.sum) % 4294967296) (d := d) R.pos (by rw [R.times]; exact hlen) (by rw [R.times]; exact hg)
    rw [k1]
    refine ⟨_, rfl, { R with times := ?_, pos := ?_, found := R.found, count := ?_ }⟩
    · show expand es' = _
      rw [k2, R.times, hl, Nat.mod_eq_of_lt (a := t - D.sum) (by omega), Nat.mod_eq_of_lt hds]
    · exact pos_extendLast R.pos (by rw [R.times]; exact hlen) k1
    · rw [lengthen_length]; exact R.count

/-! ## Fragments -/

theorem after_sum (D : List Nat) (f : Frag) : (lengthen D f.time).sum ≤ (after D f).sum := by
  unfold after
  rw [List.sum_append]
  omega

theorem afterAll_sum : ∀ (fs : List Frag) (D : List Nat), D.sum ≤ (fs.foldl after D).sum := by
  intro fs
  induction fs with
  | nil => intro D; exact Nat.le_refl _
  | cons f fs ih =>
    intro D
    have h1 := lengthen_sum D f.time
    have h2 := after_sum D f
    have h3 := ih (after D f)
    rw [List.foldl_cons]
    omega

theorem Rep.all {dref drefs : Nat} (hd1 : 1 ≤ dref) (hd2 : dref ≤ drefs) :
    ∀ (fs : List Frag) (m : Table) (H : List Piece) (D : List Nat), Rep m dref drefs H D →
      (∀ f ∈ fs, f.tfhd.descIndex = 1 ∧ f.tfhd.flags &&& 0x10000 = 0) →
      Fits (H ++ fs.flatMap Frag.pieces) → TimesOK D fs → (fs.foldl after D).sum < 4294967296 →
      ∃ m', mergeAll fs m = .ok (m', none) ∧
        Rep m' dref drefs (H ++ fs.flatMap Frag.pieces) (fs.foldl after D) := by
  intro fs
  induction fs with
  | nil => intro m H D R _ _ _ _; exact ⟨m, rfl, by simpa using R⟩
  | cons f fs ih =>
    intro m H D R hh hf ht hs
    rw [List.flatMap_cons, ← List.append_assoc] at hf
    rw [List.foldl_cons] at hs
    obtain ⟨hd, hflag⟩ := hh f (by simp)
    have hsum := afterAll_sum fs (after D f)
    have hsum' := after_sum D f
    have hDlen : D.length + 1 < 4294967296 := by
      have := hf.left.left.samples
      rw [R.count]
      show (H.flatMap Piece.entries).length + 1 < _
      omega
    obtain ⟨m1, k1, R1⟩ : ∃ m1, (match f.time with
        | none => Step.of .ok
        | some t => startAt t) m = .ok (m1, none) ∧ Rep m1 dref drefs H (lengthen D f.time) := by
      cases htime : f.time with
      | none => exact ⟨m, rfl, R⟩
      | some t =>
        obtain ⟨a, b⟩ := ht.1 t htime
        rw [htime] at hsum'
        exact R.start t a b hDlen (by omega)
    obtain ⟨m2, k2, R2⟩ := Rep.runs hd1 hd2 hd f.runs m1 H _ R1 hf.left
    have hfrag : mergeFragment f m = .ok (m2, none) := by
      unfold mergeFragment
      refine (andThen_ok (m' := m1) k1).trans ?_
      rw [if_neg (by unfold has; rw [hflag]; simp), k2]
      rfl
    obtain ⟨m3, k3, R3⟩ := ih m2 _ _ R2 (fun g hg => hh g (by simp [hg])) hf ht.2 (by
      exact hs)
    refine ⟨m3, ?_, ?_⟩
    · unfold mergeAll
      rw [andThen_ok hfrag]; exact k3
    · rw [List.flatMap_cons, ← List.append_assoc]
      exact R3

/-! ## Asking for a sample -/

theorem spread_length : ∀ (es : List Entry) (p : Nat), (spread p es).length = es.length := by
  intro es
  induction es with
  | nil => intro p; rfl
  | cons e es ih => intro p; simp [spread, ih]

theorem spread_get : ∀ (es : List Entry) (p k : Nat), (spread p es)[k]? =
    es[k]?.map fun e => (p + ((es.take k).map Entry.size).sum, e) := by
  intro es
  induction es with
  | nil => intro p k; simp [spread]
  | cons e es ih =>
    intro p k
    cases k with
    | zero => simp [spread]
    | succ k =>
      simp only [spread, List.getElem?_cons_succ, ih, List.take_succ_cons, List.map_cons, List.sum_cons,
        Nat.add_assoc]

theorem samplesOf_length (H : List Piece) : (samplesOf H).length = (ents H).length := by
  unfold samplesOf ents
  rw [List.length_flatMap, List.length_flatMap]
  congr 1
  exact List.map_congr_left fun p _ => spread_length _ _

theorem samplesOf_get (H1 H2 : List Piece) (x : Piece) {k : Nat} (hk : k < x.entries.length) :
    (samplesOf (H1 ++ x :: H2))[(ents H1).length + k]? =
      some (x.place + ((x.entries.take k).map Entry.size).sum, x.entries[k]) := by
  have e : samplesOf (H1 ++ x :: H2) = samplesOf H1 ++ (spread x.place x.entries ++ samplesOf H2) := by
    simp [samplesOf]
  rw [e, List.getElem?_append_right (by rw [samplesOf_length]; omega), samplesOf_length, Nat.add_sub_cancel_left,
    List.getElem?_append_left (by rw [spread_length]; exact hk), spread_get, List.getElem?_eq_getElem hk]
  rfl

theorem u64i_s32 {d : Nat} (h : d < 2147483648) : u64i (s32 d) = d := by
  unfold u64i s32
  rw [if_pos h]
  omega

theorem Rep.info {m : Table} {dref drefs : Nat} {H : List Piece} {D : List Nat} (R : Rep m dref drefs H D)
    (hf : Fits H) (hsum : D.sum < 4294967296) {n : Nat} {s : Nat × Entry} {d : Nat}
    (hs : (samplesOf H)[n]? = some s) (hd : D[n]? = some d) (hd' : d < 2147483648) :
    info m (n + 1) = .ok (expected H D n s d) := by
  have hn : n < (ents H).length := by
    rw [← samplesOf_length]; exact (List.getElem?_eq_some_iff.mp hs).1
  have hsm : (ents H).length + 1 < 1073739776 := hf.samples
  have hrn := hf.runs
  have hcnt : m.stsz.count = (ents H).length := by rw [(sizesInv_rep R.sizes).count]; simp
  -- chunk
  have hposs : ∀ c ∈ H.map fun p : Piece => (p.entries.length, 1), 0 < c.1 := by
    intro c hc
    obtain ⟨p, hp, rfl⟩ := List.mem_map.mp hc
    exact List.length_pos_iff.mpr (hf.nonempty p hp)
  have hwf := R.stsc.wf hposs
  have hchunks := R.stsc.chunks
  have hfst : (H.map fun p : Piece => (p.entries.length, 1)).map Prod.fst = H.map fun p => p.entries.length := by
    rw [List.map_map]; rfl
  have hlenSum : ((H.map fun p : Piece => (p.entries.length, 1)).map Prod.fst).sum = (ents H).length := by
    rw [hfst]
    unfold ents
    rw [List.length_flatMap]
  obtain ⟨o, st, l1, _, _, l4⟩ := Stsc.lookup_spec (t := m.stsc) hwf (by rw [List.length_map]; omega)
    (by rw [hchunks, hlenSum]; omega) (fun h => absurd R.cache h) (n + 1) (by omega)
  obtain ⟨c, c', s', g1, g2, g3, _, g5⟩ := l4 (by rw [hchunks, hlenSum]; omega)
  rw [hchunks] at g1 g3 g5
  obtain ⟨s0, d0, e1, e2, e3⟩ := g1
  have hcH : c < H.length := by
    have := (List.getElem?_eq_some_iff.mp e1).1
    rwa [List.length_map] at this
  obtain ⟨H1, x, H2, hHH, hH1⟩ : ∃ H1 x H2, H = H1 ++ x :: H2 ∧ H1.length = c :=
    ⟨H.take c, H[c], H.drop (c + 1), by rw [List.getElem_cons_drop, List.take_append_drop],
      by rw [List.length_take]; omega⟩
  have hdesc : o.desc = 1 := by
    have := List.mem_of_getElem? g5
    obtain ⟨p, _, hp⟩ := List.mem_map.mp this
    injection hp with _ hp
    exact hp.symm
  have hs0 : s0 = x.entries.length := by
    rw [List.getElem?_map, hHH, List.getElem?_append_right (by omega), hH1, Nat.sub_self] at e1
    simp at e1
    exact e1.1.symm
  have hbefore : samplesBefore (H.map fun p : Piece => (p.entries.length, 1)) c = (ents H1).length := by
    unfold samplesBefore startOf
    rw [hfst, hHH, ← List.map_take, ← hH1, List.take_left]
    unfold ents
    rw [List.length_flatMap]
  rw [hbefore] at e2 e3 g3
  obtain ⟨k, hk⟩ : ∃ k, n = (ents H1).length + k := ⟨n - (ents H1).length, by omega⟩
  have hkx : k < x.entries.length := by omega
  have hsx := samplesOf_get H1 H2 x hkx
  rw [← hHH, ← hk, hs] at hsx
  injection hsx with hsx
  have hxm : x ∈ H := by rw [hHH]; simp
  obtain ⟨q1, q2⟩ := hf.data x hxm
  have hentsn : (ents H)[n]? = some x.entries[k] := by
    have : ents H = ents H1 ++ (x.entries ++ ents H2) := by rw [hHH]; simp [ents]
    rw [this, hk, List.getElem?_append_right (by omega), Nat.add_sub_cancel_left,
      List.getElem?_append_left hkx, List.getElem?_eq_getElem hkx]
  have hs2 : s.2 = x.entries[k] := by rw [hsx]
  rw [← hs2] at hentsn
  have hmapn : ∀ {β : Type} (f : Entry → β), ((ents H).map f)[n]? = some (f s.2) := by
    intro β f
    rw [List.getElem?_map, hentsn]; rfl
  -- size and offset
  have hsz := Stsz.Rep.sizeAndOffset (sizesInv_rep R.sizes) (n := n + 1) (f := (ents H1).length + 1)
    (by omega) (by omega) (by rw [List.length_map]; omega)
  have hoff : ((((ents H).map Entry.size).drop ((ents H1).length + 1 - 1)).take
      (n + 1 - ((ents H1).length + 1))).sum = ((x.entries.take k).map Entry.size).sum := by
    have : ents H = ents H1 ++ (x.entries ++ ents H2) := by rw [hHH]; simp [ents]
    rw [this, List.map_append, Nat.add_sub_cancel, List.drop_left' (by rw [List.length_map]),
      show n + 1 - ((ents H1).length + 1) = k by omega, ← List.map_take,
      List.take_append_of_le_length (by omega)]
  have hle : ((x.entries.take k).map Entry.size).sum ≤ (x.entries.map Entry.size).sum := by
    conv => rhs; rw [← List.take_append_drop k x.entries, List.map_append, List.sum_append]
    omega
  rw [hoff, Nat.mod_eq_of_lt (by omega)] at hsz
  have hszv : ((ents H).map Entry.size)[n + 1 - 1]'(by rw [List.length_map]; omega) = s.2.size := by
    have := hmapn Entry.size
    exact (List.getElem?_eq_some_iff.mp this).2
  rw [hszv] at hsz
  -- chunk offset
  have hco : Stco.getChunkOffset m.stco o.chunk = .ok x.place := by
    rw [R.chunks.getChunkOffset o.chunk, dif_pos ⟨by omega, by rw [List.length_map]; omega⟩]
    congr 1
    have hcx : (H.map Piece.place)[c]? = some x.place := by
      rw [List.getElem?_map, hHH, List.getElem?_append_right (by omega), hH1, Nat.sub_self]; rfl
    have := (List.getElem?_eq_some_iff.mp hcx).2
    simp only [g2, Nat.add_sub_cancel]
    exact this
  -- time
  have hno := noOverflow R.pos (by rw [R.times, R.count]; omega) (by rw [R.times]; exact hsum)
  obtain ⟨t1, t2⟩ := (Stts.getTime_spec (t := m.stts) hno (fun h => by rw [R.found] at h; cases h) (n + 1)).2
    (by omega) (by rw [R.times, R.count]; omega)
  rw [R.times, Nat.add_sub_cancel] at t1 t2
  rw [hd, Option.some.injEq] at t2
  -- the rest
  have hpad := pads_get R.pads (hmapn padding)
  have hsync := Stss.isSync_of_inv R.sync (hmapn isSync)
  have hdep := R.deps.get n
  rw [List.getD_eq_getElem?_getD, hmapn depByte, Option.getD_some] at hdep
  have hofs := offs_get R.offs (by rw [List.length_map]; omega) (hmapn Entry.offset)
  unfold Merge.info
  rw [l1]
  simp only [Res.bind, g3, hsz, hco, hcnt, hpad, hdesc, R.stsd, hsync, hdep, hofs, t1, ← t2, u64i_s32 hd']
  rw [if_neg (by decide), Nat.mod_eq_of_lt (by omega)]
  unfold expected
  congr 1
  rw [hsx]
  congr 1
  rw [List.all_map]
  rfl

end Verif.Merge
