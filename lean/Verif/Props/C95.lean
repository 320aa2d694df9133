import Verif.Lemmas.Groups

/-!
# C95: sample groups of all types, through calls and merged fragments
-/

namespace Verif.Grps

open Verif.Sbgp (Sbgp)

variable {t : Tab} {a : Groups}

/-! ## Calls -/

theorem history_from {junk : Nat → Nat} {frag : Bool} : ∀ (os : List Op) {t : Tab} {a : Groups}, Rep t a → AllValid frag a os →
    ∃ t', runAll (step junk frag) t os = .ok t' ∧ Rep t' (os.foldl (Groups.apply frag) a)
  | [], t, _, h, _ => ⟨t, rfl, h⟩
  | o :: os, t, a, h, hv => by
    obtain ⟨t1, h1, h2⟩ := step_rep (junk := junk) (frag := frag) h o hv.1
    obtain ⟨t2, h3, h4⟩ := history_from (junk := junk) os h2 hv.2
    exact ⟨t2, by unfold runAll; rw [h1]; exact h3, h4⟩

/-- After any calls for any types, in a movie or in a fragment, the boxes hold the groups the calls are about. -/
theorem c95_history {junk : Nat → Nat} {frag : Bool} (os : List Op) (hv : AllValid frag none' os) :
    ∃ t, runAll (step junk frag) empty os = .ok t ∧ Rep t (os.foldl (Groups.apply frag) none') :=
  history_from os rep_empty hv

/-- What the calls return: the number of a description (plus 65536 in a fragment), or that it is empty or there already;
whether the samples, and in a movie the description, are there. -/
theorem c95_results {junk : Nat → Nat} (h : Rep t a) (type : Nat) :
    (∀ d, (addDesc t type d).2 = if d = [] ∨ d ∈ a.list type then .err .badParam else .ok ((a.list type).length + 1)) ∧
    (∀ d, (a.list type).length < 4294901759 → (addLocal t type d).2 =
      if d = [] ∨ d ∈ a.list type then .err .badParam else .ok (65536 + ((a.list type).length + 1))) ∧
    ∀ group index n, a.Valid (.map type group index n) →
      (∃ t', map junk false t type group index n =
        .ok (t', if a.Known type group ∧ a.There index n then none else some .badParam)) ∧
      ∃ t', mapIn junk true false t type group index n = .ok (t', if a.There index n then none else some .badParam) := by
  refine ⟨fun d => (addDesc_rep h type d).2, fun d hl => ?_, fun group index n hv => ?_⟩
  · have := (addDesc_rep h type d).2
    unfold addLocal
    generalize addDesc t type d = r at *
    obtain ⟨t', r⟩ := r
    simp only at this
    subst this
    by_cases hc : d = [] ∨ d ∈ a.list type
    · simp only [if_pos hc]
    · simp only [if_neg hc]
      rw [Nat.mod_eq_of_lt (by omega), Nat.add_comm]
  · obtain ⟨t1, h1, _⟩ := map_rep (junk := junk) h (type := type) (group := group) hv.1 hv.2.1 hv.2.2
    obtain ⟨t2, h2, _⟩ := mapIn_rep (junk := junk) (frag := true) h (type := type) (group := group) hv.1 hv.2.1 hv.2.2
    exact ⟨⟨t1, h1⟩, t2, h2⟩

/-- What can be asked: a description by its number, how many there are, the number of a sample. -/
theorem c95_asked (h : Rep t a) (type : Nat) :
    (∀ i, getDesc t type i = match nameIn (a.list type) i with | some d => .ok d | none => .err .badParam) ∧
    (descCount t type = match a.descs type with | some ds => .ok ds.length | none => .err .notFound) ∧
    ∀ n, getMap t type (n + 1) = match a.maps type with | some L => .ok (L.getD n 0) | none => .err .badParam := by
  refine ⟨fun i => ?_, ?_, fun n => ?_⟩
  · unfold getDesc Groups.list
    rw [h.descs]
    cases a.descs type with
    | none => cases i <;> rfl
    | some ds =>
      simp only [Option.getD_some]
      unfold Sgpd.get
      cases i with
      | zero => rfl
      | succ i =>
        show _ = match ds[i]? with | some d => Res.ok d | none => .err .badParam
        by_cases hi : i < ds.length
        · rw [if_neg (by omega), Nat.add_sub_cancel, List.getElem?_eq_getElem hi]
        · rw [if_pos (by omega), List.getElem?_eq_none (by omega)]
  · unfold descCount
    rw [h.descs]
    cases a.descs type <;> rfl
  · unfold getMap
    have := h.maps type
    cases hf : find type t.maps with
    | none => rw [hf] at this; simp only at this ⊢; rw [this]
    | some s =>
      rw [hf] at this
      obtain ⟨L, h1, h2⟩ := this
      rw [h1]
      exact h2.get n

/-- So the description of each sample can be found: its number leads to it, and the number of a sample without one is 0 (or
there is no mapping, or in a fragment no description). -/
theorem c95_read (h : Rep t a) (type n : Nat) :
    (∀ d, (a.names type)[n]? = some (some d) → ∃ g, getMap t type (n + 1) = .ok g ∧ getDesc t type g = .ok d) ∧
    (a.Sound → (a.names type)[n]? = some none → getMap t type (n + 1) = .ok 0 ∨ getMap t type (n + 1) = .err .badParam) := by
  obtain ⟨h1, _, h3⟩ := c95_asked h type
  unfold Groups.names
  rw [List.getElem?_map]
  refine ⟨fun d hd => ?_, fun hs hd => ?_⟩
  · obtain ⟨g, hg, hn⟩ := Option.map_eq_some_iff.mp hd
    cases hm : a.maps type with
    | none =>
      rw [Groups.cells, hm, Option.getD_none] at hg
      have := List.mem_of_getElem? hg
      rw [List.eq_of_mem_replicate this] at hn
      cases hn
    | some L =>
      rw [Groups.cells, hm, Option.getD_some] at hg
      refine ⟨g, ?_, by rw [h1, hn]⟩
      rw [h3, hm]
      simp only [List.getD_eq_getElem?_getD, hg, Option.getD_some]
  · obtain ⟨g, hg, hn⟩ := Option.map_eq_some_iff.mp hd
    have hle := hs type g (List.mem_of_getElem? hg)
    have h0 : g = 0 := by
      cases g with
      | zero => rfl
      | succ g =>
        have : (a.list type)[g]? = none := hn
        have := List.getElem?_eq_none_iff.mp this
        omega
    subst h0
    rw [h3]
    cases hm : a.maps type with
    | none => exact .inr rfl
    | some L =>
      rw [Groups.cells, hm, Option.getD_some] at hg
      left
      simp only [List.getD_eq_getElem?_getD, hg, Option.getD_some]

theorem sound_none : none'.Sound := by
  intro type g hg
  cases hg

theorem mem_overwrite {L : List Nat} {s n g x : Nat} (h : s + n ≤ L.length) (hx : x ∈ Mem.overwrite L s (List.replicate n g)) :
    x ∈ L ∨ x = g := by
  rw [Mem.overwrite_eq (by simpa using h), List.mem_append, List.mem_append] at hx
  rcases hx with (hx | hx) | hx
  · exact .inl (List.mem_of_mem_take hx)
  · exact .inr (List.eq_of_mem_replicate hx)
  · exact .inl (List.mem_of_mem_drop hx)

/-- In a movie no call gives a sample the number of a description that is not there. -/
theorem c95_sound {junk : Nat → Nat} (h : Rep t a) (hs : a.Sound) (o : Op) (hv : a.Valid o) :
    ∃ t', step junk false t o = .ok t' ∧ Rep t' (a.apply false o) ∧ (a.apply false o).Sound := by
  obtain ⟨t', h1, h2⟩ := step_rep (junk := junk) (frag := false) h o hv
  refine ⟨t', h1, h2, fun x g hg => ?_⟩
  cases o with
  | samples n =>
    have hg : g ∈ (a.more n).cells x := hg
    rw [cells_more, List.mem_append] at hg
    rcases hg with hg | hg
    · exact hs x g hg
    · rw [List.eq_of_mem_replicate hg]; exact Nat.zero_le _
  | desc type d =>
    have := hs x g hg
    refine Nat.le_trans this ?_
    show _ ≤ (Option.getD (update _ _ _ x) []).length
    unfold update
    split
    · next hx =>
      subst hx
      rw [Option.getD_some]
      split
      · exact Nat.le_refl _
      · rw [List.length_append]; omega
    · exact Nat.le_refl _
  | map type group index n =>
    have hg : g ∈ (if false = true ∨ a.Known type group then a.setCells type group index n else a).cells x := hg
    show g ≤ ((if false = true ∨ a.Known type group then a.setCells type group index n else a).list x).length
    by_cases hk : a.Known type group
    · rw [if_pos (.inr hk)] at hg ⊢
      show g ≤ (a.list x).length
      by_cases hx : x = type
      · subst hx
        have hg : g ∈ Option.getD (update _ _ _ x) _ := hg
        unfold update at hg
        rw [if_pos rfl, Option.getD_some] at hg
        split at hg
        · next ht =>
          have h0 : -(a.count : Int) ≤ index := hv.1
          unfold Groups.There at ht
          have hl := h.cells_length x
          rcases mem_overwrite (by
            unfold Sbgp.first at ht ⊢
            rw [hl]
            split at ht
            · next hi => rw [if_pos hi]; omega
            · next hi => rw [if_neg hi]; omega) hg with hg | rfl
          · exact hs x g hg
          · exact hk.2
        · exact hs x g hg
      · have hg : g ∈ Option.getD (update _ _ _ x) _ := hg
        unfold update at hg
        rw [if_neg hx] at hg
        exact hs x g hg
    · rw [if_neg (by rintro (h | h); · cases h
                     · exact hk h)] at hg ⊢
      exact hs x g hg

/-! ## Merging -/

theorem nameIn_prefix {ds ds' : List Bytes} (h : ds <+: ds') {g : Nat} (hg : g ≤ ds.length) : nameIn ds' g = nameIn ds g := by
  cases g with
  | zero => rfl
  | succ g =>
    obtain ⟨more, rfl⟩ := h
    exact List.getElem?_append_left (by omega)

theorem look_of_mem {β : Type} : ∀ {l : List (Nat × List β)}, (l.map (·.1)).Nodup → ∀ {m}, m ∈ l → look l m.1 = m.2
  | p :: l, hn, m, hm => by
    rw [List.map_cons, List.nodup_cons] at hn
    rcases List.mem_cons.mp hm with rfl | hm
    · simp [look]
    · have hne : p.1 ≠ m.1 := fun e => hn.1 (e ▸ List.mem_map_of_mem (f := (·.1)) hm)
      have := look_of_mem hn.2 hm
      unfold look at this ⊢
      rw [List.find?_cons_of_neg (by simpa using hne)]
      exact this

theorem look_not_mem {β : Type} {l : List (Nat × List β)} {x : Nat} (h : x ∉ l.map (·.1)) : look l x = [] := by
  unfold look
  rw [List.find?_eq_none.mpr]
  · rfl
  · intro p hp he
    exact h (List.mem_map.mpr ⟨p, hp, by simpa using he⟩)

theorem nameIn_resolve {p : Piece} {D : Nat → Option (List Bytes)} {type g : Nat}
    (h1 : g < 65536 → g ≤ ((D type).getD []).length)
    (h2 : 65536 < g → ∃ d, d ≠ [] ∧ nameIn (look p.descs type) (g - 65536) = some d) :
    Good ((p.after D type).getD []) (look p.descs type) g ∧
      nameIn ((p.after D type).getD []) (resolve ((p.after D type).getD []) (look p.descs type) g) =
        p.nameOf ((D type).getD []) type g := by
  have hp := after_prefix p D type
  have hgood : Good ((p.after D type).getD []) (look p.descs type) g := by
    refine ⟨fun hg => Nat.le_trans (h1 hg) hp.length_le, fun hg => ?_⟩
    obtain ⟨d, h0, hd⟩ := h2 hg
    refine ⟨d, h0, hd, after_mem ?_ h0⟩
    obtain ⟨k, hk⟩ : ∃ k, g - 65536 = k + 1 := ⟨g - 65537, by omega⟩
    rw [hk] at hd
    exact List.mem_of_getElem? hd
  refine ⟨hgood, ?_⟩
  unfold resolve Piece.nameOf
  by_cases hg : g < 65536
  · rw [if_pos hg, if_pos hg, nameIn_prefix hp (h1 hg)]
  · rw [if_neg hg, if_neg hg]
    by_cases he : g = 65536
    · subst he; rfl
    · obtain ⟨d, _, hd, hm⟩ := hgood.2 (by omega)
      obtain ⟨k, e1, e2⟩ := findFrom_mem hm
      rw [hd]
      simp only [e1, Option.getD_some]
      exact e2

/-- A fragment becomes a part of the movie: for every type the samples have the descriptions they had in the fragment, all
others have those they had, and the descriptions have kept their numbers. -/
theorem c95_merge {junk : Nat → Nat} (h : Rep t a) (hs : a.Sound) {f : Tab} {p : Piece} (hf : Holds f p) (hp : p.Fits a.descs)
    (hc : a.count + p.total < 268435456) :
    ∃ t' a', merge junk t (f, p.runs) = .ok (t', none) ∧ Rep t' a' ∧ a'.Sound ∧ a'.count = a.count + p.total ∧
      a'.descs = p.after a.descs ∧ ∀ type, a'.names type = a.names type ++ p.names (a.list type) type := by
  obtain ⟨hf1, hf2⟩ := hf
  have h1 := mergeDescs_after h p
  obtain ⟨t1, h2, h3⟩ := addRuns_rep (junk := junk) p.runs h1 hc
  have hcells : ∀ type, (Groups.more { a with descs := p.after a.descs } p.total).cells type =
      a.cells type ++ List.replicate p.total 0 := fun type => cells_more _ _ _
  have hgood := fun m (hm : m ∈ p.maps) g (hg : g ∈ m.2) =>
    nameIn_resolve (p := p) (D := a.descs) (hp.movie m hm g hg) (hp.own m hm g hg)
  have hsome : ∀ m ∈ p.maps, ∃ ds, p.after a.descs m.1 = some ds := fun m hm =>
    Option.isSome_iff_exists.mp (after_isSome (hp.type m hm))
  obtain ⟨t2, b, k1, k2, k3, k4, k5, k6⟩ := mergeMaps_rep (junk := junk) (M := a.cells) (total := p.total)
    (D := p.after a.descs) hf1 f.maps p.maps hf2 h3 rfl hp.once (Nat.le_add_left ..)
    (fun m hm => ⟨hp.length m hm, by
      obtain ⟨ds, hds⟩ := hsome m hm
      refine ⟨ds, hds, fun g hg => ?_⟩
      have := (hgood m hm g hg).1
      rwa [hds] at this⟩)
    (fun m hm => ⟨hcells m.1, by rw [h.cells_length]; rfl⟩)
  have hpre := after_prefix p a.descs
  have hlist : ∀ type, b.list type = (p.after a.descs type).getD [] := fun type => by rw [Groups.list, k4]
  have hrest : ∀ type, type ∉ p.maps.map (·.1) → b.cells type = a.cells type ++ List.replicate p.total 0 := by
    intro type ht
    rw [← hcells type]
    unfold Groups.cells
    rw [k5 type ht, k3]
    rfl
  have hold : ∀ type, (a.cells type).map (nameIn (b.list type)) = a.names type := by
    intro type
    refine List.map_congr_left fun g hg => ?_
    rw [hlist]
    exact nameIn_prefix (hpre type) (hs type g hg)
  refine ⟨t2, b, ?_, k2, fun type g hg => ?_, k3, k4, fun type => ?_⟩
  · unfold merge
    simp only
    rw [hf1, h2, Res.ok_bind]
    have : w32(p.runs.foldl (· + ·) 0) = p.total := Nat.mod_eq_of_lt (by unfold Piece.total at hc; omega)
    rw [this]
    exact k1
  · have hle : ∀ g ∈ a.cells type, g ≤ (b.list type).length := fun g hg => by
      rw [hlist]
      exact Nat.le_trans (hs type g hg) (hpre type).length_le
    by_cases ht : type ∈ p.maps.map (·.1)
    · obtain ⟨m, hm, rfl⟩ := List.mem_map.mp ht
      rw [k6 m hm, List.mem_append, List.mem_append] at hg
      rcases hg with (hg | hg) | hg
      · exact hle g hg
      · obtain ⟨g', hg', rfl⟩ := List.mem_map.mp hg
        rw [hlist]
        exact resolve_le (hgood m hm g' hg').1
      · rw [List.eq_of_mem_replicate hg]; exact Nat.zero_le _
    · rw [hrest type ht, List.mem_append] at hg
      rcases hg with hg | hg
      · exact hle g hg
      · rw [List.eq_of_mem_replicate hg]; exact Nat.zero_le _
  · by_cases ht : type ∈ p.maps.map (·.1)
    · obtain ⟨m, hm, rfl⟩ := List.mem_map.mp ht
      unfold Groups.names at hold ⊢
      rw [k6 m hm, List.map_append, List.map_append, hold, List.append_assoc]
      congr 1
      unfold Piece.names
      rw [look_of_mem hp.once hm, List.map_map, List.map_replicate]
      congr 1
      refine List.map_congr_left fun g hg => ?_
      rw [hlist]
      exact (hgood m hm g hg).2
    · unfold Groups.names at hold ⊢
      rw [hrest type ht, List.map_append, hold]
      congr 1
      unfold Piece.names
      rw [look_not_mem ht, List.map_replicate]
      simp [nameIn]

/-- And so do any number of fragments, one after the other. -/
theorem c95_merge_all {junk : Nat → Nat} : ∀ (fps : List (Tab × Piece)) {t : Tab} {a : Groups}, Rep t a → a.Sound →
    (∀ x ∈ fps, Holds x.1 x.2) → AllFit a.descs (fps.map (·.2)) → a.count + allTotal (fps.map (·.2)) < 268435456 →
    ∃ t' a', mergeAll junk t (fps.map fun x => (x.1, x.2.runs)) = .ok t' ∧ Rep t' a' ∧ a'.Sound ∧
      a'.count = a.count + allTotal (fps.map (·.2)) ∧ a'.descs = allAfter a.descs (fps.map (·.2)) ∧
      ∀ type, a'.names type = a.names type ++ allNames type a.descs (fps.map (·.2))
  | [], t, a, h, hs, _, _, _ => ⟨t, a, rfl, h, hs, rfl, rfl, fun type => (List.append_nil _).symm⟩
  | x :: fps, t, a, h, hs, hh, hfit, hc => by
    have htot : allTotal ((x :: fps).map (·.2)) = x.2.total + allTotal (fps.map (·.2)) := by
      unfold allTotal
      simp only [List.map_cons, List.foldl_cons]
      rw [foldl_add, Nat.zero_add]
    rw [htot] at hc ⊢
    obtain ⟨t1, a1, h1, h2, h3, h4, h5, h6⟩ := c95_merge (junk := junk) h hs (hh x (List.mem_cons_self ..)) hfit.1 (by omega)
    obtain ⟨t2, a2, g1, g2, g3, g4, g5, g6⟩ := c95_merge_all (junk := junk) fps h2 h3
      (fun y hy => hh y (List.mem_cons_of_mem _ hy)) (by rw [h5]; exact hfit.2) (by omega)
    refine ⟨t2, a2, ?_, g2, g3, by omega, ?_, fun type => ?_⟩
    · show runAll _ _ (_ :: _) = _
      unfold runAll
      rw [h1]
      exact g1
    · rw [g5, h5]; rfl
    · rw [g6, h6, h5, List.append_assoc]; rfl

/-! ## Fragments made by calls -/

theorem growAll_keys {junk : Nat → Nat} {n : Nat} : ∀ {l l' : List (Nat × Sbgp)}, growAll junk n l = .ok l' →
    l'.map (·.1) = l.map (·.1)
  | [], _, h => by cases h; rfl
  | p :: l, l', h => by
    unfold growAll at h
    cases h1 : Sbgp.addSamples junk p.2 n with
    | ub => rw [h1] at h; cases h
    | err e => rw [h1] at h; cases h
    | ok s =>
      rw [h1, Res.ok_bind] at h
      cases h2 : growAll junk n l with
      | ub => rw [h2] at h; cases h
      | err e => rw [h2] at h; cases h
      | ok r =>
        rw [h2] at h
        cases h
        simp [growAll_keys h2]

theorem put_keys {β : Type} {type : Nat} {b : β} : ∀ (l : List (Nat × β)), (put type b l).map (·.1) = l.map (·.1)
  | [] => rfl
  | p :: l => by
    unfold put
    split
    · rfl
    · simp [put_keys l]

theorem find_none {β : Type} {type : Nat} : ∀ {l : List (Nat × β)}, find type l = none → type ∉ l.map (·.1)
  | [], _ => nofun
  | p :: l, h => by
    unfold find at h
    split at h
    · cases h
    · next hp =>
      rw [List.map_cons, List.mem_cons, not_or]
      exact ⟨fun e => hp e.symm, find_none h⟩

theorem nodup_snoc {l : List Nat} {x : Nat} (h : l.Nodup) (hx : x ∉ l) : (l ++ [x]).Nodup := by
  rw [List.nodup_append]
  refine ⟨h, by simp, ?_⟩
  intro y hy z hz e
  simp only [List.mem_singleton] at hz
  subst hz
  exact hx (e ▸ hy)

theorem mapIn_keys {junk : Nat → Nat} {frag : Bool} {type group n : Nat} {index : Int} {r : Tab × Option Err} {t : Tab}
    (h : mapIn junk frag false t type group index n = .ok r) (hn : (t.maps.map (·.1)).Nodup) : (r.1.maps.map (·.1)).Nodup := by
  unfold mapIn at h
  cases hf : find type t.maps with
  | some s =>
    rw [hf] at h
    simp only at h
    split at h
    · cases h; simpa [put_keys] using hn
    · cases h; exact hn
    · cases h
  | none =>
    rw [hf] at h
    simp only at h
    cases hs : fresh junk frag t.count with
    | ub => rw [hs] at h; cases h
    | err e => rw [hs] at h; cases h
    | ok s =>
      rw [hs, Res.ok_bind] at h
      have := nodup_snoc hn (find_none hf)
      split at h
      · cases h; simpa using this
      · cases h; simpa using this
      · cases h

theorem step_keys {junk : Nat → Nat} {t t' : Tab} {o : Op} (h : step junk true t o = .ok t')
    (hn : (t.maps.map (·.1)).Nodup) : (t'.maps.map (·.1)).Nodup := by
  cases o with
  | samples n =>
    have h : addSamples junk t n = .ok t' := h
    unfold addSamples at h
    cases h1 : growAll junk n t.maps with
    | ub => rw [h1] at h; cases h
    | err e => rw [h1] at h; cases h
    | ok l =>
      rw [h1] at h
      cases h
      show (l.map (·.1)).Nodup
      rw [growAll_keys h1]
      exact hn
  | desc type d =>
    have h : Res.ok (addDesc t type d).1 = .ok t' := h
    cases h
    unfold addDesc
    simp only
    split <;> exact hn
  | map type group index n =>
    have h : (mapIn junk true false t type group index n).bind _ = .ok t' := h
    cases h1 : mapIn junk true false t type group index n with
    | ub => rw [h1] at h; cases h
    | err e => rw [h1] at h; cases h
    | ok r =>
      rw [h1] at h
      cases h
      exact mapIn_keys h1 hn

theorem history_keys {junk : Nat → Nat} : ∀ (os : List Op) {t t' : Tab}, runAll (step junk true) t os = .ok t' →
    (t.maps.map (·.1)).Nodup → (t'.maps.map (·.1)).Nodup
  | [], _, _, h, hn => by cases h; exact hn
  | o :: os, t, t', h, hn => by
    unfold runAll at h
    cases h1 : step junk true t o with
    | ub => rw [h1] at h; cases h
    | err e => rw [h1] at h; cases h
    | ok t1 =>
      rw [h1] at h
      exact history_keys os h (step_keys h1 hn)

theorem rep_cells {s : Sbgp} {L : List Nat} (h : Sbgp.Rep s L) : s.cells.take s.count = L := by
  rw [h.count]; exact h.cells

theorem allRep_of : ∀ {l : List (Nat × Sbgp)}, (∀ x ∈ l, ∃ L, Sbgp.Rep x.2 L) →
    AllRep l (l.map fun x => (x.1, x.2.cells.take x.2.count))
  | [], _ => trivial
  | x :: l, h => by
    obtain ⟨L, hL⟩ := h x (List.mem_cons_self ..)
    exact ⟨⟨rfl, by show Sbgp.Rep x.2 (x.2.cells.take x.2.count); rw [rep_cells hL]; exact hL⟩, allRep_of fun y hy => h y (List.mem_cons_of_mem _ hy)⟩

theorem find_map {β γ : Type} (type : Nat) (g : β → γ) : ∀ (l : List (Nat × β)),
    find type (l.map fun x => (x.1, g x.2)) = (find type l).map g
  | [] => rfl
  | p :: l => by
    rw [List.map_cons]
    unfold find
    split
    · rfl
    · exact find_map type g l

theorem not_empty {frag : Bool} : ∀ (os : List Op) {a : Groups}, (∀ type, [] ∉ a.list type) →
    ∀ type, [] ∉ (os.foldl (Groups.apply frag) a).list type
  | [], _, h => h
  | o :: os, a, h => by
    refine not_empty os fun x => ?_
    cases o with
    | samples n => exact h x
    | desc type d =>
      show [] ∉ Option.getD (update _ _ _ x) []
      unfold update
      split
      · next hx =>
        rw [Option.getD_some]
        split
        · exact h _
        · next hc =>
          rw [List.mem_append, List.mem_singleton]
          rintro (hm | rfl)
          · exact h _ hm
          · exact hc (.inl rfl)
      · exact h x
    | map type group index n =>
      show [] ∉ (if _ then _ else _ : Groups).list x
      split
      · exact h x
      · exact h x

theorem nameIn_there {ds : List Bytes} (hne : [] ∉ ds) {i : Nat} (h0 : 0 < i) (h1 : i ≤ ds.length) :
    ∃ d, d ≠ [] ∧ nameIn ds i = some d := by
  cases i with
  | zero => cases h0
  | succ k => exact ⟨ds[k], fun e => hne (e ▸ List.getElem_mem h1), List.getElem?_eq_getElem h1⟩

theorem nameOf_zero (p : Piece) (ds : List Bytes) (type : Nat) : p.nameOf ds type 0 = none := by
  unfold Piece.nameOf
  rw [if_pos (by decide)]
  rfl

theorem names_of {f : Nat → Option Bytes} (h0 : f 0 = none) {n : Nat} (o : Option (List Nat)) (hl : ∀ L, o = some L → L.length = n) :
    (o.getD []).map f ++ List.replicate (n - (o.getD []).length) none = (o.getD (List.replicate n 0)).map f := by
  cases o with
  | none => simp [h0]
  | some L => simp [hl L rfl]

/-- From the calls in a fragment to the movie: for every type, a sample of the fragment has in the movie the description that
the calls gave it, one of the movie (numbers below 65536) or of the fragment (numbers above). -/
theorem c95_calls_merged {junk : Nat → Nat} (h : Rep t a) (hs : a.Sound) (os : List Op) (hv : AllValid true none' os)
    {b : Groups} (hb : b = os.foldl (Groups.apply true) none') {runs : List Nat} (hr : runs.foldl (· + ·) 0 = b.count)
    (htype : ∀ type, b.maps type ≠ none → (a.descs type).isSome ∨ b.list type ≠ [])
    (hmovie : ∀ type, ∀ g ∈ b.cells type, g < 65536 → g ≤ (a.list type).length)
    (hown : ∀ type, ∀ g ∈ b.cells type, g - 65536 ≤ (b.list type).length)
    (hc : a.count + b.count < 268435456) :
    ∃ f t' a', runAll (step junk true) empty os = .ok f ∧ merge junk t (f, runs) = .ok (t', none) ∧ Rep t' a' ∧ a'.Sound ∧
      ∀ type, a'.names type = a.names type ++ (b.cells type).map fun g =>
        if g < 65536 then nameIn (a.list type) g else nameIn (b.list type) (g - 65536) := by
  obtain ⟨f, h1, h2⟩ := c95_history (junk := junk) os hv
  rw [← hb] at h2
  have hne : ∀ type, [] ∉ b.list type := by
    rw [hb]
    exact not_empty os fun type hm => nomatch hm
  have hkeys := history_keys os h1 (by simp [empty])
  have hlook : ∀ type, look f.descs type = b.list type := fun type => by rw [← find_look, h2.descs]; rfl
  have hmaps : ∀ type, look (f.maps.map fun x => (x.1, x.2.cells.take x.2.count)) type = (b.maps type).getD [] := by
    intro type
    rw [← find_look, find_map (g := fun s : Sbgp => s.cells.take s.count)]
    have := h2.maps type
    cases hf : find type f.maps with
    | none => rw [hf] at this; simp only at this; rw [this]; rfl
    | some s =>
      rw [hf] at this
      obtain ⟨L, e1, e2⟩ := this
      rw [e1]
      simp only [Option.map_some, Option.getD_some]
      exact rep_cells e2
  obtain ⟨p, hpd, hpm, hpr⟩ : ∃ p : Piece, p.descs = f.descs ∧ p.maps = f.maps.map (fun x => (x.1, x.2.cells.take x.2.count)) ∧
    p.runs = runs := ⟨⟨_, _, _⟩, rfl, rfl, rfl⟩
  have hptot : p.total = b.count := by unfold Piece.total; rw [hpr]; exact hr
  rw [← hpd] at hlook
  rw [← hpm] at hmaps
  have hpkeys : (p.maps.map (·.1)).Nodup := by
    rw [hpm, List.map_map]
    exact hkeys
  have hholds : Holds f p := ⟨hpd.symm, hpm ▸ allRep_of fun x hx => (h2.boxes x hx).elim fun L hL => ⟨L, hL.1⟩⟩
  have hmem : ∀ m ∈ p.maps, b.maps m.1 = some m.2 := by
    intro m hm
    have e1 := look_of_mem hpkeys hm
    have e2 : look p.maps m.1 = (b.maps m.1).getD [] := hmaps m.1
    have e3 := h2.maps m.1
    cases hf : find m.1 f.maps with
    | none =>
      rw [hpm] at hm
      obtain ⟨x, hx, e⟩ := List.mem_map.mp hm
      have : x.1 = m.1 := by rw [← e]
      exact absurd (List.mem_map.mpr ⟨x, hx, this⟩) (find_none hf)
    | some s =>
      rw [hf] at e3
      obtain ⟨L, k1, _⟩ := e3
      rw [k1] at e2 ⊢
      rw [← e1, e2]
      rfl
  have hcells : ∀ m ∈ p.maps, b.cells m.1 = m.2 := fun m hm => by rw [Groups.cells, hmem m hm]; rfl
  have hfits : p.Fits a.descs := by
    refine ⟨hpkeys, fun m hm => ?_, fun m hm => ?_, fun m hm g hg hlt => ?_, fun m hm g hg hlt => ?_⟩
    · rw [hptot, h2.len (hmem m hm)]; exact Nat.le_refl _
    · rw [hlook]
      exact htype m.1 (by rw [hmem m hm]; nofun)
    · exact hmovie m.1 g (by rw [hcells m hm]; exact hg) hlt
    · rw [hlook]
      exact nameIn_there (hne m.1) (Nat.sub_pos_of_lt hlt) (hown m.1 g (by rw [hcells m hm]; exact hg))
  obtain ⟨t', a', g1, g2, g3, _, _, g6⟩ := c95_merge (junk := junk) h hs hholds hfits (by rw [hptot]; exact hc)
  rw [hpr] at g1
  refine ⟨f, t', a', h1, g1, g2, g3, fun type => ?_⟩
  rw [g6]
  congr 1
  unfold Piece.names
  rw [hptot, hmaps]
  have hfun : p.nameOf (a.list type) type = fun g =>
      if g < 65536 then nameIn (a.list type) g else nameIn (b.list type) (g - 65536) := by
    funext g
    unfold Piece.nameOf
    rw [hlook]
  rw [← hfun]
  exact names_of (nameOf_zero p _ _) (b.maps type) fun L hL => h2.len hL

/-! ## Examples -/

instance (a : Groups) (o : Op) : Decidable (a.Valid o) := by
  cases o <;> unfold Groups.Valid <;> infer_instance

instance decValid (frag : Bool) : ∀ (a : Groups) (os : List Op), Decidable (AllValid frag a os)
  | _, [] => .isTrue trivial
  | a, o :: os =>
    have := decValid frag (a.apply frag o) os
    inferInstanceAs (Decidable (a.Valid o ∧ AllValid frag (a.apply frag o) os))

/-- A movie with two types. The second call for a description is refused, as is the last mapping. -/
def opsMovie : List Op := [.samples 3, .desc 1 [10], .desc 1 [10], .desc 1 [11, 12], .desc 2 [20], .map 1 2 (-2) 1, .samples 1,
  .map 2 1 3 1, .map 1 3 0 1]

example : AllValid false none' opsMovie ∧
    (opsMovie.foldl (Groups.apply false) none').names 1 = [none, some [11, 12], none, none] ∧
    (opsMovie.foldl (Groups.apply false) none').names 2 = [none, none, none, some [20]] := by
  decide +kernel

/-- A fragment: its first description is the second of the movie, its second a new one; the last sample of the first type has
a description of the movie. Type 3 is only in the fragment. -/
def opsFrag : List Op := [.desc 1 [11, 12], .desc 1 [13], .samples 2, .map 1 65538 0 1, .map 1 1 1 1, .desc 3 [30], .samples 2,
  .map 1 65537 (-2) 1, .map 3 65537 3 1]

example : AllValid true none' opsFrag ∧
    (opsFrag.foldl (Groups.apply true) none').cells 1 = [65538, 1, 65537, 0] ∧
    (opsFrag.foldl (Groups.apply true) none').cells 3 = [0, 0, 0, 65537] := by
  decide +kernel

def junk7 : Nat → Nat := fun _ => 77

def after (frag : Bool) (os : List Op) : Tab :=
  match runAll (step junk7 frag) empty os with
  | .ok t => t
  | _ => empty

/-- The numbers after merging it, twice. -/
example : (mergeAll junk7 (after false opsMovie) [(after true opsFrag, [2, 2]), (after true opsFrag, [4])]).bind (fun t =>
      .ok ((List.range 12).map fun i => getMap t 1 (i + 1))) = .ok ([0, 2, 0, 0, 3, 1, 2, 0, 3, 1, 2, 0].map .ok) ∧
    (mergeAll junk7 (after false opsMovie) [(after true opsFrag, [2, 2]), (after true opsFrag, [4])]).bind (fun t =>
      .ok (getMap t 3 8, getMap t 3 7, getDesc t 1 3)) = .ok (.ok 1, .ok 0, .ok [13]) := by decide +kernel

/-- The hypotheses of merging are met. -/
example : Piece.Fits ⟨[(1, [[11, 12], [13]]), (3, [[30]])], [(1, [65538, 1, 65537, 65536]), (3, [0, 65537])], [2, 2]⟩
    (fun x => if x = 1 then some [[10], [11, 12]] else none) := by
  refine ⟨by decide, by decide, by decide, by decide, ?_⟩
  intro m hm g hg hlt
  simp only [List.mem_cons, List.not_mem_nil, or_false] at hm
  rcases hm with rfl | rfl <;> simp only [List.mem_cons, List.not_mem_nil, or_false] at hg
  · rcases hg with rfl | rfl | rfl | rfl
    · exact ⟨[13], by decide, rfl⟩
    · exact absurd hlt (by decide)
    · exact ⟨[11, 12], by decide, rfl⟩
    · exact absurd hlt (by decide)
  · rcases hg with rfl | rfl
    · exact absurd hlt (by decide)
    · exact ⟨[30], by decide, rfl⟩

/-! ## Where the code does not do it -/

/-- With `SAMPLE_GROUP_AUTO` a mapping succeeds, but it cannot be asked for afterwards, and a second one makes a second box. -/
theorem c95_not_auto :
    (map junk7 true (after false [.samples 2, .desc 1 [10]]) 1 1 0 1).bind (fun r => .ok (r.2, getMap r.1 1 1)) =
      .ok (none, .err .badParam) ∧
    ((map junk7 true (after false [.samples 2, .desc 1 [10]]) 1 1 0 1).bind fun r =>
      (map junk7 true r.1 1 1 1 1).bind fun r => .ok (r.2, r.1.maps.length, r.1.strays.length)) = .ok (none, 0, 2) ∧
    ((mapIn junk7 true true (after true [.samples 2, .desc 1 [10]]) 1 65537 0 1).bind fun r =>
      .ok (r.2, decide (r.1 = after true [.samples 2, .desc 1 [10]]))) = .ok (none, true) := by decide +kernel

/-- A refused call changes the state: there is a box for the descriptions, or the samples. -/
theorem c95_not_clean :
    (addDesc empty 1 []).2 = .err .badParam ∧ descCount empty 1 = .err .notFound ∧ descCount (addDesc empty 1 []).1 1 = .ok 0 ∧
    getMap (after false [.samples 2, .desc 1 [10]]) 1 1 = .err .badParam ∧
    (map junk7 false (after false [.samples 2, .desc 1 [10]]) 1 1 1 2).bind (fun r => .ok (r.2, getMap r.1 1 1)) =
      .ok (some .badParam, .ok 0) := by decide +kernel

/-- In a fragment the number of a new description is not the one to ask for it with. -/
theorem c95_not_local :
    (addLocal empty 1 [10]).2 = .ok 65537 ∧ getDesc (addLocal empty 1 [10]).1 1 65537 = .err .badParam ∧
    getDesc (addLocal empty 1 [10]).1 1 1 = .ok [10] := by decide +kernel

/-- A mapping that is longer than the runs of its fragment changes the first samples of the movie. -/
theorem c95_not_long :
    getMap (after false [.samples 2, .desc 1 [10], .map 1 0 0 1]) 1 1 = .ok 0 ∧
    (merge junk7 (after false [.samples 2, .desc 1 [10], .map 1 0 0 1]) (after true [.samples 2, .map 1 1 1 1], [1])).bind (fun r =>
      .ok (r.2, getMap r.1 1 1, getMap r.1 1 3)) = .ok (none, .ok 1, .ok 0) := by decide +kernel

/-- A mapping for which the movie has no descriptions ends the merging of all later ones. -/
theorem c95_not_error :
    (merge junk7 (after false [.samples 2, .desc 1 [10]]) (after true [.samples 1, .map 2 0 0 1, .map 1 1 0 1], [1])).bind (fun r =>
      .ok (r.2, getMap r.1 1 3)) = .ok (some .badParam, .err .badParam) ∧
    (merge junk7 (after false [.samples 2, .desc 1 [10]]) (after true [.samples 1, .map 1 1 0 1, .map 2 0 0 1], [1])).bind (fun r =>
      .ok (r.2, getMap r.1 1 3)) = .ok (some .badParam, .ok 1) := by decide +kernel

end Verif.Grps
