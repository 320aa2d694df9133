import Verif.Spec.Groups

namespace Verif.Grps

open Verif.Sbgp (Sbgp)

/-! ## Lists of boxes -/

theorem find_put {β : Type} {type : Nat} {b0 b : β} : ∀ {l : List (Nat × β)}, find type l = some b0 → ∀ x,
    find x (put type b l) = if x = type then some b else find x l
  | [], h, _ => nomatch h
  | p :: l, h, x => by
    unfold put
    by_cases hp : p.1 = type
    · rw [if_pos hp]
      unfold find
      by_cases hx : x = type
      · subst hx; simp [hp]
      · rw [if_neg hx, if_neg (by rw [hp]; exact fun e => hx e.symm), if_neg (by rw [hp]; exact fun e => hx e.symm)]
    · rw [if_neg hp]
      have h' : find type l = some b0 := by
        unfold find at h
        rwa [if_neg hp] at h
      unfold find
      rw [find_put h' x]
      by_cases hx : x = type
      · subst hx; simp [hp]
      · simp only [hx, if_false]

theorem find_append {β : Type} (type x : Nat) (b : β) : ∀ (l : List (Nat × β)),
    find x (l ++ [(type, b)]) = (find x l).or (if x = type then some b else none)
  | [] => by
    by_cases hx : x = type
    · subst hx; simp [find]
    · simp [find, hx, Ne.symm hx]
  | p :: l => by
    rw [List.cons_append]
    unfold find
    split
    · rfl
    · exact find_append type x b l

theorem mem_put {β : Type} {type : Nat} {b : β} : ∀ {l : List (Nat × β)} {p : Nat × β}, p ∈ put type b l → p ∈ l ∨ p.2 = b
  | [], _, h => nomatch h
  | q :: l, p, h => by
    unfold put at h
    split at h
    · rcases List.mem_cons.mp h with rfl | h
      · exact .inr rfl
      · exact .inl (List.mem_cons_of_mem _ h)
    · rcases List.mem_cons.mp h with rfl | h
      · exact .inl (List.mem_cons_self ..)
      · rcases mem_put h with h | h
        · exact .inl (List.mem_cons_of_mem _ h)
        · exact .inr h

theorem find_look {β : Type} (type : Nat) : ∀ (l : List (Nat × List β)), (find type l).getD [] = look l type
  | [] => rfl
  | p :: l => by
    have ih := find_look type l
    unfold find
    unfold look at *
    by_cases h : p.1 = type
    · simp [h]
    · simp [h, ih]

theorem update_same {β : Type} (f : Nat → β) (type : Nat) : update f type (f type) = f := by
  funext x
  unfold update
  split
  · next h => rw [h]
  · rfl

/-! ## Growing -/

theorem growAll_rep {junk : Nat → Nat} {c n : Nat} (hc : c + n < 268435456) : ∀ (l : List (Nat × Sbgp)),
    (∀ p ∈ l, ∃ L, Sbgp.Rep p.2 L ∧ L.length = c) → ∃ l', growAll junk n l = .ok l' ∧
      (∀ p ∈ l', ∃ L, Sbgp.Rep p.2 L ∧ L.length = c + n) ∧
      ∀ type, match find type l with
        | none => find type l' = none
        | some s => ∃ s', find type l' = some s' ∧ ∀ L, Sbgp.Rep s L → Sbgp.Rep s' (L ++ List.replicate n 0)
  | [], _ => ⟨[], rfl, (fun p hp => nomatch hp), fun _ => rfl⟩
  | p :: l, h => by
    obtain ⟨l', h1, h2, h3⟩ := growAll_rep hc l fun q hq => h q (List.mem_cons_of_mem _ hq)
    obtain ⟨L, hL, hl⟩ := h p (List.mem_cons_self ..)
    obtain ⟨s, g1, g2, _⟩ := Sbgp.addSamples_rep (junk := junk) hL n (by omega)
    refine ⟨(p.1, s) :: l', ?_, ?_, fun type => ?_⟩
    · unfold growAll
      rw [g1, Res.ok_bind, h1, Res.ok_bind]
    · intro q hq
      rcases List.mem_cons.mp hq with rfl | hq
      · exact ⟨_, g2, by rw [List.length_append, List.length_replicate, hl]⟩
      · exact h2 q hq
    · have := h3 type
      by_cases ht : p.1 = type
      · rw [show find type (p :: l) = some p.2 by simp [find, ht]]
        refine ⟨s, by simp [find, ht], fun M hM => ?_⟩
        obtain ⟨s', k1, k2, _⟩ := Sbgp.addSamples_rep (junk := junk) hM n
          (by have := hM.count; have := hL.count; omega)
        rw [g1] at k1
        cases k1
        exact k2
      · rw [show find type (p :: l) = find type l by simp [find, ht], show find type ((p.1, s) :: l') = find type l' by
          simp [find, ht]]
        exact this

variable {t : Tab} {a : Groups}

theorem Rep.len (h : Rep t a) {type : Nat} {L : List Nat} (hL : a.maps type = some L) : L.length = a.count := by
  have := h.maps type
  cases hf : find type t.maps with
  | none => rw [hf] at this; rw [hL] at this; cases this
  | some s =>
    rw [hf] at this
    obtain ⟨L', h1, h2⟩ := this
    rw [hL] at h1
    cases h1
    have hm : ∀ l : List (Nat × Sbgp), find type l = some s → ∃ p ∈ l, p.2 = s := by
      intro l
      induction l with
      | nil => intro h; nomatch h
      | cons p l ih =>
        intro hh
        unfold find at hh
        split at hh
        · cases hh; exact ⟨p, List.mem_cons_self .., rfl⟩
        · obtain ⟨q, h1, h2⟩ := ih hh
          exact ⟨q, List.mem_cons_of_mem _ h1, h2⟩
    obtain ⟨p, hp, e⟩ := hm _ hf
    obtain ⟨L', h3, h4⟩ := h.boxes p hp
    have h5 := h3.count
    have h6 := h2.count
    rw [e] at h5
    omega

theorem Rep.cells_length (h : Rep t a) (type : Nat) : (a.cells type).length = a.count := by
  unfold Groups.cells
  cases hm : a.maps type with
  | none => simp
  | some L => simpa using h.len hm

theorem rep_empty : Rep empty none' :=
  ⟨rfl, by decide, fun _ => rfl, (fun p hp => nomatch hp), fun _ => rfl⟩

theorem addSamples_rep {junk : Nat → Nat} (h : Rep t a) {n : Nat} (hn : a.count + n < 268435456) :
    ∃ t', addSamples junk t n = .ok t' ∧ Rep t' (a.more n) := by
  obtain ⟨l', h1, h2, h3⟩ := growAll_rep (junk := junk) hn t.maps h.boxes
  refine ⟨{ t with maps := l', count := w32(t.count + n) }, ?_, ⟨?_, hn, h.descs, h2, fun type => ?_⟩⟩
  · unfold addSamples
    rw [h1, Res.ok_bind]
  · show (t.count + n) % 4294967296 = a.count + n
    rw [h.count, Nat.mod_eq_of_lt (by omega)]
  · have e1 := h.maps type
    have e2 := h3 type
    show match find type l' with
      | none => (a.maps type).map (· ++ List.replicate n 0) = none
      | some s => ∃ L, (a.maps type).map (· ++ List.replicate n 0) = some L ∧ Sbgp.Rep s L
    cases hf : find type t.maps with
    | none =>
      rw [hf] at e1 e2
      simp only at e1 e2
      rw [e2, e1]
      rfl
    | some s =>
      rw [hf] at e1 e2
      obtain ⟨L, k1, k2⟩ := e1
      obtain ⟨s', k3, k4⟩ := e2
      rw [k3, k1]
      exact ⟨_, rfl, k4 L k2⟩

/-! ## Descriptions -/

theorem addDesc_rep (h : Rep t a) (type : Nat) (d : Bytes) :
    Rep (addDesc t type d).1 (a.addDesc type d) ∧
      (addDesc t type d).2 = if d = [] ∨ d ∈ a.list type then .err .badParam else .ok ((a.list type).length + 1) := by
  have hd := h.descs
  have key : ∀ descs : List (Nat × List Bytes), find type descs = some (a.list type) →
      (∀ x, x ≠ type → find x descs = a.descs x) →
      (∀ gs x, find x (put type gs descs) = update a.descs type (some gs) x) ∧
      ∀ x, find x descs = update a.descs type (some (a.list type)) x := by
    intro descs h1 h2
    refine ⟨fun gs x => ?_, fun x => ?_⟩
    · rw [find_put h1]
      unfold update
      split
      · rfl
      · next hx => exact h2 x hx
    · unfold update
      split
      · next hx => rw [hx, h1]
      · next hx => exact h2 x hx
  have main : ∀ descs : List (Nat × List Bytes), find type descs = some (a.list type) →
      (∀ x, x ≠ type → find x descs = a.descs x) →
      ∀ r : Tab × Res Nat, r = (match Sgpd.add ((find type descs).getD []) d with
        | .ok (gs, i) => ({ t with descs := put type gs descs }, .ok i)
        | .err e => ({ t with descs := descs }, .err e)
        | .ub => ({ t with descs := descs }, .ub)) →
      Rep r.1 (a.addDesc type d) ∧
        r.2 = if d = [] ∨ d ∈ a.list type then .err .badParam else .ok ((a.list type).length + 1) := by
    intro descs h1 h2 r hr
    obtain ⟨k1, k2⟩ := key descs h1 h2
    rw [h1, Option.getD_some, Sgpd.add_eq] at hr
    unfold Groups.addDesc
    by_cases hc : d = [] ∨ d ∈ a.list type
    · rw [if_pos hc] at hr
      subst hr
      rw [if_pos hc, if_pos hc]
      exact ⟨⟨h.count, h.small, k2, h.boxes, h.maps⟩, rfl⟩
    · rw [if_neg hc] at hr
      subst hr
      rw [if_neg hc, if_neg hc]
      exact ⟨⟨h.count, h.small, k1 _, h.boxes, h.maps⟩, rfl⟩
  cases hf : find type t.descs with
  | some gs =>
    refine main t.descs (by rw [hf, Groups.list, ← hd, hf]; rfl) (fun x _ => hd x) _ ?_
    unfold addDesc
    rw [hf]
    simp only [hf]
    rfl
  | none =>
    refine main (t.descs ++ [(type, [])]) ?_ (fun x hx => ?_) _ ?_
    · rw [find_append, hf, Groups.list, ← hd, hf]
      simp
    · rw [find_append, if_neg hx, hd, Option.or_none]
    · unfold addDesc
      rw [hf]
      rfl

/-! ## Mappings -/

theorem mapIn_rep {junk : Nat → Nat} {frag : Bool} (h : Rep t a) {type group : Nat} {index : Int} {n : Nat}
    (h1 : -(a.count : Int) ≤ index) (h2 : index < 2147483648) (h3 : n < 2147483648) :
    ∃ t', mapIn junk frag false t type group index n = .ok (t', if a.There index n then none else some .badParam) ∧
      Rep t' (a.setCells type group index n) := by
  have hs := h.small
  have hmaps := h.maps
  -- the new state
  have key : ∀ (s : Sbgp) (maps : List (Nat × Sbgp)), Sbgp.Rep s (if a.There index n then
        Mem.overwrite (a.cells type) (Sbgp.first a.count index).toNat (List.replicate n group) else a.cells type) →
      find type maps = some s → (∀ x, x ≠ type → find x maps = find x t.maps) → (∀ p ∈ maps, p ∈ t.maps ∨ p.2 = s) →
      Rep { t with maps := maps } (a.setCells type group index n) := by
    intro s maps hrep hf ho hm
    refine ⟨h.count, h.small, h.descs, fun p hp => ?_, fun x => ?_⟩
    · rcases hm p hp with hp | rfl
      · exact h.boxes p hp
      · refine ⟨_, hrep, ?_⟩
        have := h.cells_length type
        show _ = a.count
        split
        · rw [Mem.overwrite_length, this]
        · exact this
    · show match find x maps with
        | none => update a.maps type _ x = none
        | some s => ∃ L, update a.maps type _ x = some L ∧ Sbgp.Rep s L
      unfold update
      by_cases hx : x = type
      · subst hx
        rw [hf]
        exact ⟨_, by rw [if_pos rfl], hrep⟩
      · rw [ho x hx]
        simp only [if_neg hx]
        exact hmaps x
  -- the mapping itself
  have run : ∀ s : Sbgp, Sbgp.Rep s (a.cells type) →
      (a.There index n → ∃ s', Sbgp.mapSamples s group index n = .ok s' ∧
        Sbgp.Rep s' (Mem.overwrite (a.cells type) (Sbgp.first a.count index).toNat (List.replicate n group))) ∧
      (¬ a.There index n → Sbgp.mapSamples s group index n = .err .badParam) := by
    intro s hrep
    have hl := h.cells_length type
    obtain ⟨k1, k2⟩ := Sbgp.mapSamples_rep hrep group index n (by omega) (by omega) h2 h3
    rw [hl] at k1 k2
    refine ⟨fun hr => ?_, k2⟩
    obtain ⟨s', m1, m2, _⟩ := k1 hr
    exact ⟨_, m1, m2.note group⟩
  unfold mapIn
  have hm := hmaps type
  cases hf : find type t.maps with
  | some s =>
    rw [hf] at hm
    obtain ⟨L, e1, e2⟩ := hm
    have hc : a.cells type = L := by rw [Groups.cells, e1]; rfl
    obtain ⟨r1, r2⟩ := run s (by rw [hc]; exact e2)
    simp only
    by_cases ht : a.There index n
    · obtain ⟨s', m1, m2⟩ := r1 ht
      rw [m1]
      refine ⟨_, by rw [if_pos ht], key s' _ (by rw [if_pos ht]; exact m2) ?_ ?_ ?_⟩
      · rw [find_put hf, if_pos rfl]
      · intro x hx; rw [find_put hf, if_neg hx]
      · intro p hp; exact mem_put hp
    · rw [r2 ht]
      refine ⟨_, by rw [if_neg ht], key s t.maps (by rw [if_neg ht, hc]; exact e2) hf (fun _ _ => rfl) (fun p hp => .inl hp)⟩
  | none =>
    rw [hf] at hm
    simp only at hm
    have hc : a.cells type = List.replicate a.count 0 := by rw [Groups.cells, hm]; rfl
    have hnew : ∃ s, fresh junk frag t.count = .ok s ∧ Sbgp.Rep s (a.cells type) := by
      unfold fresh
      rw [h.count, hc]
      by_cases h0 : frag = true ∧ a.count = 0
      · rw [if_pos h0, h0.2]
        exact ⟨_, rfl, Sbgp.rep_create true⟩
      · rw [if_neg h0]
        obtain ⟨s, g1, g2, _⟩ := Sbgp.addSamples_rep (junk := junk) (Sbgp.rep_create frag) a.count (by simp; omega)
        exact ⟨s, g1, by simpa using g2⟩
    obtain ⟨s, hs1, hs2⟩ := hnew
    obtain ⟨r1, r2⟩ := run s hs2
    simp only
    rw [hs1, Res.ok_bind]
    have hfind : ∀ s : Sbgp, find type (t.maps ++ [(type, s)]) = some s := by
      intro s; rw [find_append, hf, if_pos rfl]; rfl
    have hother : ∀ (s : Sbgp) x, x ≠ type → find x (t.maps ++ [(type, s)]) = find x t.maps := by
      intro s x hx; rw [find_append, if_neg hx, Option.or_none]
    have hmem : ∀ (s : Sbgp), ∀ p ∈ t.maps ++ [(type, s)], p ∈ t.maps ∨ p.2 = s := by
      intro s p hp
      rcases List.mem_append.mp hp with hp | hp
      · exact .inl hp
      · simp only [List.mem_singleton] at hp
        subst hp
        exact .inr rfl
    by_cases ht : a.There index n
    · obtain ⟨s', m1, m2⟩ := r1 ht
      rw [m1]
      exact ⟨_, by rw [if_pos ht]; rfl, key s' _ (by rw [if_pos ht]; exact m2) (hfind s') (hother s') (hmem s')⟩
    · rw [r2 ht]
      exact ⟨_, by rw [if_neg ht]; rfl, key s _ (by rw [if_neg ht]; exact hs2) (hfind s) (hother s) (hmem s)⟩

theorem map_rep {junk : Nat → Nat} (h : Rep t a) {type group : Nat} {index : Int} {n : Nat}
    (h1 : -(a.count : Int) ≤ index) (h2 : index < 2147483648) (h3 : n < 2147483648) :
    ∃ t', map junk false t type group index n =
        .ok (t', if a.Known type group ∧ a.There index n then none else some .badParam) ∧
      Rep t' (if a.Known type group then a.setCells type group index n else a) := by
  unfold map
  rw [h.descs]
  cases hd : a.descs type with
  | none =>
    have hk : ¬ a.Known type group := by unfold Groups.Known; rw [hd]; simp
    exact ⟨t, by rw [if_neg (fun x => hk x.1)], by rw [if_neg hk]; exact h⟩
  | some gs =>
    have hl : a.list type = gs := by rw [Groups.list, hd]; rfl
    by_cases hg : group > gs.length
    · have hk : ¬ a.Known type group := by unfold Groups.Known; rw [hl]; omega
      simp only [if_pos hg]
      exact ⟨t, by rw [if_neg (fun x => hk x.1)], by rw [if_neg hk]; exact h⟩
    · have hk : a.Known type group := by unfold Groups.Known; rw [hl, hd]; exact ⟨rfl, by omega⟩
      simp only [if_neg hg]
      obtain ⟨t', g1, g2⟩ := mapIn_rep (junk := junk) (frag := false) h (type := type) (group := group) h1 h2 h3
      refine ⟨t', ?_, by rw [if_pos hk]; exact g2⟩
      rw [g1]
      simp only [hk, true_and]

theorem step_rep {junk : Nat → Nat} {frag : Bool} (h : Rep t a) (o : Op) (hv : a.Valid o) :
    ∃ t', step junk frag t o = .ok t' ∧ Rep t' (a.apply frag o) := by
  cases o with
  | samples n => exact addSamples_rep h hv
  | desc type d => exact ⟨_, rfl, (addDesc_rep h type d).1⟩
  | map type group index n =>
    obtain ⟨v1, v2, v3⟩ := hv
    cases frag with
    | true =>
      obtain ⟨t', g1, g2⟩ := mapIn_rep (junk := junk) (frag := true) h (type := type) (group := group) v1 v2 v3
      refine ⟨t', ?_, ?_⟩
      · show (mapIn junk true false t type group index n).bind _ = _; rw [g1]; rfl
      · unfold Groups.apply; simpa using g2
    | false =>
      obtain ⟨t', g1, g2⟩ := map_rep (junk := junk) h (type := type) (group := group) v1 v2 v3
      refine ⟨t', ?_, ?_⟩
      · show (map junk false t type group index n).bind _ = _; rw [g1]; rfl
      · unfold Groups.apply; simpa using g2

/-! ## Merging descriptions -/

/-- Descriptions of one box. -/
def Groups.addDescs (a : Groups) (p : Nat × List Bytes) : Groups := p.2.foldl (fun a d => a.addDesc p.1 d) a

theorem Rep.same_descs (h : Rep t a) {D : Nat → Option (List Bytes)} (hD : D = a.descs) : Rep t { a with descs := D } := by
  subst hD; exact h

theorem mergeDesc_rep (h : Rep t a) {there : Bool} {type : Nat} (ht : there = true → (a.descs type).isSome = true) (d : Bytes) :
    Rep (mergeDesc there type t d) (a.addDesc type d) := by
  unfold mergeDesc
  cases there with
  | false => exact (addDesc_rep h type d).1
  | true =>
    obtain ⟨ds, hds⟩ := Option.isSome_iff_exists.mp (ht rfl)
    have hl : a.list type = ds := by rw [Groups.list, hds]; rfl
    have hsame : (d = [] ∨ d ∈ ds) → Rep t (a.addDesc type d) := by
      intro hc
      refine h.same_descs ?_
      rw [hl, if_pos hc, ← hds]
      exact update_same _ _
    rw [if_pos rfl, h.descs, hds, Option.getD_some]
    unfold Sgpd.find
    by_cases h0 : d.length = 0
    · rw [if_pos h0]
      exact hsame (.inl (List.length_eq_zero_iff.mp h0))
    · rw [if_neg h0]
      cases hf : Sgpd.findFrom d 0 ds with
      | none => exact (addDesc_rep h type d).1
      | some i =>
        refine hsame (.inr ?_)
        apply Classical.byContradiction
        intro hn
        rw [(Sgpd.findFrom_none ds 0).mpr hn] at hf
        cases hf

theorem addDesc_isSome (a : Groups) (type : Nat) (d : Bytes) {x : Nat} (h : (a.descs x).isSome = true) :
    ((a.addDesc type d).descs x).isSome = true := by
  show Option.isSome (update _ _ _ x) = true
  unfold update
  split
  · rfl
  · exact h

theorem mergeDescs_fold {there : Bool} {type : Nat} : ∀ (ds : List Bytes) {t : Tab} {a : Groups}, Rep t a →
    (there = true → (a.descs type).isSome = true) →
    Rep (ds.foldl (mergeDesc there type) t) (ds.foldl (fun a d => a.addDesc type d) a)
  | [], _, _, h, _ => h
  | d :: ds, _, a, h, ht =>
    mergeDescs_fold ds (mergeDesc_rep h ht d) fun e => addDesc_isSome a type d (ht e)

theorem mergeDescs_rep (h : Rep t a) (p : Nat × List Bytes) : Rep (mergeDescs t p) (a.addDescs p) := by
  refine mergeDescs_fold p.2 h fun e => ?_
  rwa [h.descs] at e

theorem mergeDescs_all : ∀ (l : List (Nat × List Bytes)) {t : Tab} {a : Groups}, Rep t a →
    Rep (l.foldl mergeDescs t) (l.foldl Groups.addDescs a)
  | [], _, _, h => h
  | p :: l, _, _, h => mergeDescs_all l (mergeDescs_rep h p)

/-- Adding a description to those there. -/
def addOne (ds : List Bytes) (d : Bytes) : List Bytes := if d = [] ∨ d ∈ ds then ds else ds ++ [d]

/-- Descriptions of one type. -/
def addSome (o : Option (List Bytes)) (more : List Bytes) : Option (List Bytes) :=
  if o = none ∧ more = [] then none else some (more.foldl addOne (o.getD []))

theorem addSome_nil (o : Option (List Bytes)) : addSome o [] = o := by
  cases o <;> simp [addSome]

theorem addSome_cons (o : Option (List Bytes)) (d : Bytes) (more : List Bytes) :
    addSome o (d :: more) = addSome (some (addOne (o.getD []) d)) more := by
  simp [addSome]

theorem addSome_append (more' : List Bytes) : ∀ (more : List Bytes) (o : Option (List Bytes)),
    addSome o (more ++ more') = addSome (addSome o more) more'
  | [], o => by rw [addSome_nil]; rfl
  | d :: more, o => by rw [List.cons_append, addSome_cons, addSome_append more' more, addSome_cons]

theorem addDescs_fold (type : Nat) : ∀ (ds : List Bytes) (a : Groups),
    ds.foldl (fun a d => a.addDesc type d) a = { a with descs := fun x => if x = type then addSome (a.descs x) ds else a.descs x }
  | [], a => by
    simp [addSome_nil]
  | d :: ds, a => by
    rw [List.foldl_cons, addDescs_fold type ds]
    show Groups.mk _ _ _ = Groups.mk _ _ _
    congr 1
    funext x
    show (if x = type then addSome (update a.descs type (some (addOne (a.list type) d)) x) ds else update a.descs type _ x) = _
    unfold update
    by_cases hx : x = type
    · subst hx
      simp only [if_true, addSome_cons]
      rfl
    · simp only [hx, if_false]

theorem addDescs_all (l : List (Nat × List Bytes)) : ∀ (a : Groups),
    l.foldl Groups.addDescs a = { a with descs := fun x => addSome (a.descs x) ((l.filter fun y => y.1 = x).flatMap (·.2)) } := by
  induction l with
  | nil => intro a; simp [addSome_nil]
  | cons p l ih =>
    intro a
    rw [List.foldl_cons, ih]
    show Groups.mk _ _ _ = Groups.mk _ _ _
    unfold Groups.addDescs
    rw [addDescs_fold]
    congr 1
    funext x
    by_cases hx : x = p.1
    · subst hx
      simp [addSome_append]
    · simp [hx, Ne.symm hx]

theorem after_eq (p : Piece) (D : Nat → Option (List Bytes)) (x : Nat) :
    p.after D x = addSome (D x) ((p.descs.filter fun y => y.1 = x).flatMap (·.2)) := rfl

theorem mergeDescs_after (h : Rep t a) (p : Piece) : Rep (p.descs.foldl mergeDescs t) { a with descs := p.after a.descs } := by
  have := mergeDescs_all p.descs h
  rw [addDescs_all] at this
  exact this

theorem addAll_prefix : ∀ (more ds : List Bytes), ds <+: more.foldl addOne ds
  | [], ds => List.prefix_refl ds
  | d :: more, ds => by
    refine List.IsPrefix.trans ?_ (addAll_prefix more (addOne ds d))
    unfold addOne
    split
    · exact List.prefix_refl ds
    · exact List.prefix_append _ _

theorem addAll_mem : ∀ (more ds : List Bytes) {d : Bytes}, d ∈ more → d ≠ [] → d ∈ more.foldl addOne ds
  | e :: more, ds, d, h, h0 => by
    rw [List.foldl_cons]
    rcases List.mem_cons.mp h with rfl | h
    · refine (addAll_prefix more _).subset ?_
      unfold addOne
      split
      · next hc => exact hc.resolve_left h0
      · simp
    · exact addAll_mem more _ h h0

theorem after_prefix (p : Piece) (D : Nat → Option (List Bytes)) (x : Nat) :
    (D x).getD [] <+: (p.after D x).getD [] := by
  rw [after_eq]
  unfold addSome
  split
  · next h => rw [h.1]; exact List.prefix_refl _
  · exact addAll_prefix _ _

theorem look_sub {β : Type} {l : List (Nat × List β)} {x : Nat} {d : β} (h : d ∈ look l x) :
    d ∈ (l.filter fun y => y.1 = x).flatMap (·.2) := by
  unfold look at h
  cases hf : l.find? fun y => decide (y.1 = x) with
  | none => rw [hf] at h; cases h
  | some q =>
    rw [hf] at h
    refine List.mem_flatMap.mpr ⟨q, List.mem_filter.mpr ⟨List.mem_of_find?_eq_some hf, ?_⟩, h⟩
    have := List.find?_some hf
    exact this

theorem after_mem {p : Piece} {D : Nat → Option (List Bytes)} {x : Nat} {d : Bytes} (h : d ∈ look p.descs x) (h0 : d ≠ []) :
    d ∈ (p.after D x).getD [] := by
  have hm := look_sub h
  rw [after_eq]
  unfold addSome
  rw [if_neg (fun hc => by rw [hc.2] at hm; cases hm)]
  exact addAll_mem _ _ hm h0

theorem after_isSome {p : Piece} {D : Nat → Option (List Bytes)} {x : Nat} (h : (D x).isSome = true ∨ look p.descs x ≠ []) :
    (p.after D x).isSome = true := by
  rw [after_eq]
  unfold addSome
  rw [if_neg ?_]
  · rfl
  · rintro ⟨h1, h2⟩
    rcases h with h | h
    · rw [h1] at h; cases h
    · obtain ⟨d, hd⟩ := List.exists_mem_of_ne_nil _ h
      have := look_sub hd
      rw [h2] at this
      cases this

/-! ## Runs -/

theorem more_zero (a : Groups) : a.more 0 = a := by
  unfold Groups.more
  have : (fun type => (a.maps type).map (· ++ List.replicate 0 0)) = a.maps := by
    funext x
    cases a.maps x <;> simp
  rw [this]
  rfl

theorem more_more (a : Groups) (n m : Nat) : (a.more n).more m = a.more (n + m) := by
  unfold Groups.more
  simp only [Groups.mk.injEq, Nat.add_assoc, true_and]
  funext x
  cases a.maps x with
  | none => rfl
  | some L =>
    simp only [Option.map_some, List.append_assoc]
    rw [List.replicate_append_replicate]

theorem foldl_add (n : Nat) : ∀ (l : List Nat), l.foldl (· + ·) n = n + l.foldl (· + ·) 0 := by
  intro l
  induction l generalizing n with
  | nil => rfl
  | cons x l ih =>
    rw [List.foldl_cons, List.foldl_cons, ih (n + x), ih (0 + x)]
    omega

theorem addRuns_rep {junk : Nat → Nat} : ∀ (l : List Nat) {t : Tab} {a : Groups}, Rep t a →
    a.count + l.foldl (· + ·) 0 < 268435456 → ∃ t', addRuns junk l t = .ok t' ∧ Rep t' (a.more (l.foldl (· + ·) 0))
  | [], t, a, h, _ => ⟨t, rfl, by rw [List.foldl_nil, more_zero]; exact h⟩
  | n :: l, t, a, h, hs => by
    rw [List.foldl_cons, foldl_add] at hs ⊢
    obtain ⟨t1, h1, h2⟩ := addSamples_rep (junk := junk) h (n := n) (by omega)
    obtain ⟨t2, h3, h4⟩ := addRuns_rep l h2 (by show a.count + n + _ < _; omega)
    refine ⟨t2, ?_, ?_⟩
    · unfold addRuns
      rw [h1]
      exact h3
    · rw [more_more, Nat.zero_add] at *
      exact h4

theorem cells_more (a : Groups) (n type : Nat) : (a.more n).cells type = a.cells type ++ List.replicate n 0 := by
  show Option.getD ((a.maps type).map _) _ = Option.getD (a.maps type) _ ++ _
  cases a.maps type with
  | none =>
    show List.replicate (a.count + n) 0 = List.replicate a.count 0 ++ _
    rw [List.replicate_append_replicate]
  | some L => rfl

/-! ## Merging mappings -/

theorem position_eq {j total : Nat} (h : j < total) (ht : total < 268435456) : position j total = (j : Int) - total := by
  unfold position
  rw [Nat.mod_eq_of_lt (by omega)]
  unfold s32
  split <;> omega

/-- The number in the movie of a number in a fragment. -/
def resolve (ds : List Bytes) (own : List Bytes) (g : Nat) : Nat :=
  if g < 65536 then g else match nameIn own (g - 65536) with
    | none => 0
    | some d => (Sgpd.findFrom d 0 ds).getD 0

/-- A number of a fragment that can be resolved. -/
def Good (ds own : List Bytes) (g : Nat) : Prop :=
  (g < 65536 → g ≤ ds.length) ∧ (65536 < g → ∃ d, d ≠ [] ∧ nameIn own (g - 65536) = some d ∧ d ∈ ds)

theorem findFrom_mem {d : Bytes} {ds : List Bytes} (h : d ∈ ds) :
    ∃ k, Sgpd.findFrom d 0 ds = some (k + 1) ∧ ds[k]? = some d := by
  cases hf : Sgpd.findFrom d 0 ds with
  | none => exact absurd h ((Sgpd.findFrom_none ds 0).mp hf)
  | some i =>
    obtain ⟨k, hk, hd⟩ := Sgpd.findFrom_some ds 0 i hf
    exact ⟨k, by rw [hk, Nat.zero_add], hd⟩

theorem resolve_le {ds own : List Bytes} {g : Nat} (h : Good ds own g) : resolve ds own g ≤ ds.length := by
  unfold resolve
  split
  · next hg => exact h.1 hg
  · next hg =>
    by_cases he : g = 65536
    · subst he; exact Nat.zero_le _
    · obtain ⟨d, _, h1, h2⟩ := h.2 (by omega)
      obtain ⟨k, h3, h4⟩ := findFrom_mem h2
      rw [h1]
      simp only [h3, Option.getD_some]
      exact (List.getElem?_eq_some_iff.mp h4).1

/-- The boxes after a step: only the numbers of the type have changed. -/
structure Next (b b' : Groups) (type : Nat) (C : List Nat) : Prop where
  count : b'.count = b.count
  descs : b'.descs = b.descs
  maps : ∀ x, x ≠ type → b'.maps x = b.maps x
  cells : b'.cells type = C

theorem mapOne_rep {junk : Nat → Nat} {t : Tab} {b : Groups} (h : Rep t b) {type g j total : Nat} {A : List Nat}
    (hk : b.Known type g) (hj : j < total) (hA : A.length + (total - j) = b.count)
    (hc : b.cells type = A ++ List.replicate (total - j) 0) (htot : total ≤ b.count) :
    ∃ t' b', map junk false t type g (position j total) 1 = .ok (t', none) ∧ Rep t' b' ∧
      Next b b' type (A ++ g :: List.replicate (total - (j + 1)) 0) := by
  have hs := h.small
  rw [position_eq hj (by omega)]
  obtain ⟨t', h1, h2⟩ := map_rep (junk := junk) h (type := type) (group := g) (index := (j : Int) - total) (n := 1)
    (by omega) (by omega) (by omega)
  have hfirst : Sbgp.first b.count ((j : Int) - total) = (A.length : Nat) := by
    unfold Sbgp.first
    rw [if_pos (by omega)]
    omega
  have ht : b.There ((j : Int) - total) 1 := by
    unfold Groups.There
    rw [hfirst]
    omega
  rw [if_pos ⟨hk, ht⟩] at h1
  rw [if_pos hk] at h2
  refine ⟨t', _, h1, h2, rfl, rfl, fun x hx => ?_, ?_⟩
  · show update _ _ _ x = _
    unfold update
    rw [if_neg hx]
  · have hd : total - j = (total - (j + 1)) + 1 := by omega
    show Option.getD (update _ _ _ type) _ = _
    unfold update
    rw [if_pos rfl, Option.getD_some, if_pos ht, hfirst, hc, hd, List.replicate_succ]
    rw [Mem.overwrite_eq (by simp)]
    simp

theorem mergeCell_rep {junk : Nat → Nat} {t : Tab} {b : Groups} {f : Tab} {p : Piece} (h : Rep t b) {type g j total : Nat}
    {A : List Nat} {ds : List Bytes} (hf : f.descs = p.descs) (hds : b.descs type = some ds) (hg : Good ds (look p.descs type) g)
    (hj : j < total) (hA : A.length + (total - j) = b.count)
    (hc : b.cells type = A ++ List.replicate (total - j) 0) (htot : total ≤ b.count) :
    ∃ t' b', mergeCell junk f total type g j t = .ok (t', none) ∧ Rep t' b' ∧
      Next b b' type (A ++ resolve ds (look p.descs type) g :: List.replicate (total - (j + 1)) 0) := by
  have hl : b.list type = ds := by rw [Groups.list, hds]; rfl
  have hkn : ∀ i, i ≤ ds.length → b.Known type i := fun i hi => ⟨by rw [hds]; rfl, by rw [hl]; exact hi⟩
  unfold mergeCell
  by_cases h1 : g < 65536
  · rw [if_pos h1]
    have : resolve ds (look p.descs type) g = g := by unfold resolve; rw [if_pos h1]
    rw [this]
    exact mapOne_rep h (hkn _ (hg.1 h1)) hj hA hc htot
  · rw [if_neg h1]
    by_cases h2 : g = 65536
    · rw [if_neg (by omega)]
      subst h2
      refine ⟨t, b, rfl, h, rfl, rfl, fun _ _ => rfl, ?_⟩
      have hd : total - j = (total - (j + 1)) + 1 := by omega
      rw [hc, hd, List.replicate_succ]
      rfl
    · obtain ⟨d, h0, e1, e2⟩ := hg.2 (by omega)
      obtain ⟨k, e3, e4⟩ := findFrom_mem e2
      have hres : resolve ds (look p.descs type) g = k + 1 := by
        unfold resolve
        rw [if_neg h1, e1]
        simp only [e3, Option.getD_some]
      have hle := resolve_le hg
      rw [hres] at hle ⊢
      have hget : getDesc f type (g - 65536) = .ok d := by
        unfold getDesc
        obtain ⟨m, hm⟩ : ∃ m, g - 65536 = m + 1 := ⟨g - 65537, by omega⟩
        rw [hm] at e1 ⊢
        have e5 : (look p.descs type)[m]? = some d := e1
        have hlt := (List.getElem?_eq_some_iff.mp e5).1
        have hlook := find_look type f.descs
        rw [hf] at hlook ⊢
        cases hfd : find type p.descs with
        | none =>
          rw [hfd] at hlook
          rw [← hlook] at hlt
          exact absurd hlt (Nat.not_lt_zero _)
        | some gs =>
          rw [hfd, Option.getD_some] at hlook
          subst hlook
          simp only
          unfold Sgpd.get
          rw [if_neg (by omega), Nat.add_sub_cancel, e5]
      rw [if_pos h2, hget, h.descs, hds]
      simp only
      have hfind : Sgpd.find ds d = .ok (k + 1) := by
        unfold Sgpd.find
        rw [if_neg (fun e => h0 (List.length_eq_zero_iff.mp e)), e3]
      rw [hfind]
      exact mapOne_rep h (hkn _ hle) hj hA hc htot

theorem mergeCells_rep {junk : Nat → Nat} {f : Tab} {p : Piece} {s : Sbgp} {L : List Nat} {type total : Nat} {ds : List Bytes}
    (hs : Sbgp.Rep s L) (hL : L.length ≤ total) (hf : f.descs = p.descs) (hg : ∀ g ∈ L, Good ds (look p.descs type) g) :
    ∀ (k j : Nat) {t : Tab} {b : Groups} {A : List Nat}, Rep t b → b.descs type = some ds → j + k = L.length →
      A.length + (total - j) = b.count → b.cells type = A ++ List.replicate (total - j) 0 → total ≤ b.count →
      ∃ t' b', mergeCells junk f total type s k j t = .ok (t', none) ∧ Rep t' b' ∧
        Next b b' type (A ++ (L.drop j).map (resolve ds (look p.descs type)) ++ List.replicate (total - L.length) 0)
  | 0, j, t, b, A, h, hds, hk, hA, hc, _ => by
    refine ⟨t, b, rfl, h, rfl, rfl, fun _ _ => rfl, ?_⟩
    have : j = L.length := by omega
    subst this
    rw [List.drop_length, List.map_nil, List.append_nil]
    exact hc
  | k + 1, j, t, b, A, h, hds, hk, hA, hc, htot => by
    have hj : j < L.length := by omega
    obtain ⟨t1, b1, h1, h2, h3⟩ := mergeCell_rep (junk := junk) h (g := L[j]) (j := j) (total := total) hf hds
      (hg _ (List.getElem_mem hj)) (by omega) hA hc htot
    obtain ⟨t2, b2, h4, h5, h6⟩ := mergeCells_rep (junk := junk) hs hL hf hg k (j + 1)
      (A := A ++ [resolve ds (look p.descs type) L[j]]) h2 (by rw [h3.descs]; exact hds) (by omega)
      (by rw [h3.count, List.length_append, List.length_singleton]; omega)
      (by rw [h3.cells]; simp) (by rw [h3.count]; exact htot)
    refine ⟨t2, b2, ?_, h5, h6.count.trans h3.count, h6.descs.trans h3.descs, fun x hx => (h6.maps x hx).trans (h3.maps x hx), ?_⟩
    · unfold mergeCells
      rw [Mem.get_of_take hs.cells hj, Res.ok_bind, h1, Res.ok_bind]
      exact h4
    · rw [h6.cells, List.drop_eq_getElem_cons hj, List.map_cons]
      simp

theorem mergeMaps_rep {junk : Nat → Nat} {f : Tab} {p : Piece} {total : Nat} {M : Nat → List Nat} {D : Nat → Option (List Bytes)}
    (hf : f.descs = p.descs) : ∀ (fs : List (Nat × Sbgp)) (ms : List (Nat × List Nat)) {t : Tab} {b : Groups}, AllRep fs ms →
      Rep t b → b.descs = D → (ms.map (·.1)).Nodup → total ≤ b.count →
      (∀ m ∈ ms, m.2.length ≤ total ∧ ∃ ds, D m.1 = some ds ∧ ∀ g ∈ m.2, Good ds (look p.descs m.1) g) →
      (∀ m ∈ ms, b.cells m.1 = M m.1 ++ List.replicate total 0 ∧ (M m.1).length + total = b.count) →
      ∃ t' b', mergeMaps junk f total fs t = .ok (t', none) ∧ Rep t' b' ∧ b'.count = b.count ∧ b'.descs = D ∧
        (∀ x, x ∉ ms.map (·.1) → b'.maps x = b.maps x) ∧
        ∀ m ∈ ms, b'.cells m.1 = M m.1 ++ m.2.map (resolve ((D m.1).getD []) (look p.descs m.1)) ++
          List.replicate (total - m.2.length) 0
  | [], [], t, b, _, h, hD, _, _, _, _ => ⟨t, b, rfl, h, rfl, hD, fun _ _ => rfl, (fun _ hm => nomatch hm)⟩
  | [], _ :: _, _, _, hr, _, _, _, _, _, _ => hr.elim
  | _ :: _, [], _, _, hr, _, _, _, _, _, _ => hr.elim
  | x :: fs, m :: ms, t, b, hr, h, hD, hn, htot, hgood, hcells => by
    obtain ⟨⟨hr1, hr2⟩, hr3⟩ := hr
    obtain ⟨hlen, ds, hds, hg⟩ := hgood m (List.mem_cons_self ..)
    obtain ⟨hc1, hc2⟩ := hcells m (List.mem_cons_self ..)
    rw [List.map_cons, List.nodup_cons] at hn
    obtain ⟨t1, b1, h1, h2, h3⟩ := mergeCells_rep (junk := junk) (type := m.1) hr2 hlen hf hg m.2.length 0 (A := M m.1) h
      (by rw [hD]; exact hds) (by omega) (by simpa using hc2) (by simpa using hc1) htot
    have hkeep : ∀ m' ∈ ms, b1.cells m'.1 = b.cells m'.1 := by
      intro m' hm'
      have hne : m'.1 ≠ m.1 := fun e => hn.1 (e ▸ List.mem_map_of_mem (f := (·.1)) hm')
      unfold Groups.cells
      rw [h3.maps _ hne, h3.count]
    obtain ⟨t2, b2, k1, k2, k3, k4, k5, k6⟩ := mergeMaps_rep (junk := junk) (M := M) hf fs ms hr3 h2 (h3.descs.trans hD) hn.2
      (by rw [h3.count]; exact htot) (fun m' hm' => hgood m' (List.mem_cons_of_mem _ hm'))
      (fun m' hm' => by
        rw [hkeep m' hm', h3.count]
        exact hcells m' (List.mem_cons_of_mem _ hm'))
    refine ⟨t2, b2, ?_, k2, k3.trans h3.count, k4, fun x hx => ?_, fun m' hm' => ?_⟩
    · unfold mergeMaps
      rw [hr1, hr2.count, h1, Res.ok_bind]
      exact k1
    · rw [List.map_cons, List.mem_cons, not_or] at hx
      rw [k5 x hx.2, h3.maps x hx.1]
    · rcases List.mem_cons.mp hm' with rfl | hm'
      · have : b2.cells m'.1 = b1.cells m'.1 := by
          unfold Groups.cells
          rw [k5 _ hn.1, k3]
        rw [this, h3.cells, hds, List.drop_zero]
        rfl
      · exact k6 m' hm'

end Verif.Grps
