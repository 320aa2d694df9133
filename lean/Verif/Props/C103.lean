import Verif.Spec.Iprp
import Verif.Lemmas.Protect

/-!
# C103: item properties through files
-/

namespace Verif.Iprp

open Verif.Ent
open Verif.Prot (Writes WritesAll listSize_writes emits_writes survives_writes reads_into reads_ofTrip adds_app)

variable {α : Type}

/-! ## The associations -/

/-- Calls as `Ipma.added` takes them. -/
def plain (gs : List (Kid α × Nat × Nat)) : List (α × Nat × Nat) := gs.map fun g => (g.1.val, g.2)

def row (gs : List (Kid α × Nat × Nat)) (i : Nat) : Ipma.Entry := ⟨i, (numbers i gs).map fun a => ⟨a.1, a.2⟩⟩

def table (gs : List (Kid α × Nat × Nat)) : Ipma.Box := ⟨0, 0, (owners gs).map (row gs)⟩

theorem owners_snoc (gs : List (Kid α × Nat × Nat)) (g : Kid α × Nat × Nat) :
    owners (gs ++ [g]) = if g.2.1 ∈ owners gs then owners gs else owners gs ++ [g.2.1] := by
  unfold owners
  rw [List.foldl_append]
  rfl

theorem numbers_snoc (i : Nat) (gs : List (Kid α × Nat × Nat)) (g : Kid α × Nat × Nat) :
    numbers i (gs ++ [g]) = numbers i gs ++ if g.2.1 = i then [(g.2.2, gs.length + 1)] else [] := by
  unfold numbers
  rw [List.zipIdx_append, List.filter_append, List.map_append]
  congr 1
  by_cases h : g.2.1 = i <;> simp [h]

theorem owners_nodup (gs : List (Kid α × Nat × Nat)) : (owners gs).Nodup := by
  suffices H : ∀ rev : List (Kid α × Nat × Nat), (owners rev.reverse).Nodup by simpa using H gs.reverse
  intro rev
  induction rev with
  | nil => simp [owners]
  | cons g rev ih =>
    rw [List.reverse_cons, owners_snoc]
    split
    · exact ih
    · rename_i h
      rw [List.nodup_append]
      refine ⟨ih, by simp, ?_⟩
      intro a ha b hb e
      rw [List.mem_singleton] at hb
      exact h (hb ▸ e ▸ ha)

theorem owners_sub (gs : List (Kid α × Nat × Nat)) : ∀ i ∈ owners gs, ∃ g ∈ gs, g.2.1 = i := by
  suffices H : ∀ rev : List (Kid α × Nat × Nat), ∀ i ∈ owners rev.reverse, ∃ g ∈ rev, g.2.1 = i by
    intro i hi
    obtain ⟨g, hg, e⟩ := H gs.reverse i (by simpa using hi)
    exact ⟨g, by simpa using hg, e⟩
  intro rev
  induction rev with
  | nil => simp [owners]
  | cons g rev ih =>
    intro i hi
    rw [List.reverse_cons, owners_snoc] at hi
    have old : i ∈ owners rev.reverse → ∃ x ∈ g :: rev, x.2.1 = i := fun h => by
      obtain ⟨x, hx, e⟩ := ih i h
      exact ⟨x, by simp [hx], e⟩
    split at hi
    · exact old hi
    · rcases List.mem_append.1 hi with hi | hi
      · exact old hi
      · rw [List.mem_singleton] at hi
        exact ⟨g, by simp, hi.symm⟩

theorem owners_length (gs : List (Kid α × Nat × Nat)) : (owners gs).length ≤ gs.length := by
  suffices H : ∀ rev : List (Kid α × Nat × Nat), (owners rev.reverse).length ≤ rev.length by simpa using H gs.reverse
  intro rev
  induction rev with
  | nil => simp [owners]
  | cons g rev ih =>
    rw [List.reverse_cons, owners_snoc]
    split <;> simp <;> omega

theorem numbers_length (i : Nat) (gs : List (Kid α × Nat × Nat)) : (numbers i gs).length ≤ gs.length := by
  unfold numbers
  rw [List.length_map]
  exact Nat.le_trans (List.length_filter_le _ _) (by simp)

theorem numbers_mem {i : Nat} {gs : List (Kid α × Nat × Nat)} {a : Nat × Nat} (h : a ∈ numbers i gs) :
    a.2 ≤ gs.length ∧ ∃ g ∈ gs, g.2.2 = a.1 := by
  unfold numbers at h
  obtain ⟨g, hg, rfl⟩ := List.mem_map.1 h
  have hg := (List.mem_filter.1 hg).1
  obtain ⟨x, k⟩ := g
  have hk := List.mem_zipIdx hg
  simp only at hk ⊢
  refine ⟨by omega, x, ?_, rfl⟩
  rw [hk.2.2]
  exact List.getElem_mem _

theorem numbers_none {i : Nat} {gs : List (Kid α × Nat × Nat)} (h : i ∉ owners gs) : numbers i gs = [] := by
  suffices H : ∀ rev : List (Kid α × Nat × Nat), i ∉ owners rev.reverse → numbers i rev.reverse = [] by
    simpa using H gs.reverse (by simpa using h)
  intro rev
  induction rev with
  | nil => intro _; rfl
  | cons g rev ih =>
    intro h
    rw [List.reverse_cons, owners_snoc] at h
    rw [List.reverse_cons, numbers_snoc]
    split at h
    · rename_i hm
      rw [ih h, if_neg (fun e : g.2.1 = i => h (e ▸ hm))]
      rfl
    · rw [List.mem_append, List.mem_singleton, not_or] at h
      rw [ih h.1, if_neg fun e => h.2 e.symm]
      rfl

theorem lastEntry_map (f : Nat → Ipma.Entry) (hf : ∀ i, (f i).item = i) (item : Nat) (l : List Nat) :
    Ipma.lastEntry item (l.map f) = if item ∈ l then some (f item) else none := by
  induction l with
  | nil => rfl
  | cons i l ih =>
    rw [List.map_cons]
    unfold Ipma.lastEntry
    rw [ih]
    by_cases h : item ∈ l
    · simp [h]
    · by_cases e : i = item
      · subst e; simp [h, hf]
      · have : ¬ item = i := fun x => e x.symm
        simp [h, hf, e, this]

theorem updateLast_map (f : Nat → Ipma.Entry) (hf : ∀ i, (f i).item = i) (item : Nat) (a : Ipma.Assoc) (l : List Nat)
    (hn : l.Nodup) (hm : item ∈ l) : Ipma.updateLast item a (l.map f) =
      l.map fun i => if i = item then { f i with assocs := (f i).assocs ++ [a] } else f i := by
  induction l with
  | nil => cases hm
  | cons i l ih =>
    rw [List.nodup_cons] at hn
    rw [List.map_cons]
    unfold Ipma.updateLast
    rw [lastEntry_map f hf]
    by_cases h : item ∈ l
    · have hi : i ≠ item := fun e => hn.1 (e ▸ h)
      simp [h, ih hn.2 h, hi]
    · have hi : i = item := by
        rcases List.mem_cons.1 hm with e | e
        · exact e.symm
        · exact absurd e h
      subst hi
      have : l.map (fun j => if j = i then { f j with assocs := (f j).assocs ++ [a] } else f j) = l.map f := by
        apply List.map_congr_left
        intro j hj
        rw [if_neg (fun e : j = i => h (e ▸ hj))]
      rw [List.map_cons, this]
      simp [h, hf]

theorem added_eq (gs : List (Kid α × Nat × Nat)) (hn : gs.length < 2 ^ 16) :
    Ipma.added (plain gs) = ⟨gs.map (·.1.val), table gs⟩ := by
  suffices H : ∀ rev : List (Kid α × Nat × Nat), rev.length < 2 ^ 16 →
      Ipma.added (plain rev.reverse) = ⟨rev.reverse.map (·.1.val), table rev.reverse⟩ by
    have := H gs.reverse (by simpa using hn)
    simpa using this
  intro rev
  induction rev with
  | nil => intro _; rfl
  | cons g rev ih =>
    intro hl
    rw [List.length_cons] at hl
    have ih := ih (by omega)
    rw [List.reverse_cons]
    generalize hgs : rev.reverse = gs at ih
    have hlen : gs.length = rev.length := by rw [← hgs]; simp
    have hs : Ipma.added (plain (gs ++ [g])) = Ipma.addProperty (Ipma.added (plain gs)) g.1.val g.2.1 g.2.2 := by
      simp [Ipma.added, plain, List.foldl_append]
    rw [hs, ih]
    have hrow : ∀ i, (row gs i).item = i := fun _ => rfl
    have hw : w16((gs.map (·.1.val)).length + 1) = gs.length + 1 := by rw [List.length_map]; omega
    unfold Ipma.addProperty
    simp only
    rw [hw]
    have hsame : ∀ i, i ≠ g.2.1 → row (gs ++ [g]) i = row gs i := by
      intro i hi
      unfold row
      rw [numbers_snoc, if_neg fun e => hi e.symm, List.append_nil]
    have hself : row (gs ++ [g]) g.2.1 = ⟨g.2.1, (row gs g.2.1).assocs ++ [⟨g.2.2, gs.length + 1⟩]⟩ := by
      unfold row
      rw [numbers_snoc, if_pos rfl, List.map_append]
      rfl
    have ht : (if (Ipma.lastEntry g.2.1 (table gs).entries).isSome
        then Ipma.updateLast g.2.1 ⟨g.2.2, gs.length + 1⟩ (table gs).entries
        else (table gs).entries ++ [⟨g.2.1, [⟨g.2.2, gs.length + 1⟩]⟩]) = (table (gs ++ [g])).entries := by
      unfold table
      simp only
      rw [lastEntry_map _ hrow, owners_snoc]
      by_cases hm : g.2.1 ∈ owners gs
      · simp only [hm, if_true, Option.isSome_some]
        rw [updateLast_map _ hrow _ _ _ (owners_nodup gs) hm]
        apply List.map_congr_left
        intro i _
        by_cases e : i = g.2.1
        · subst e; rw [if_pos rfl, hself]; rfl
        · rw [if_neg e, hsame i e]
      · simp only [hm, if_false, Option.isSome_none, Bool.false_eq_true]
        rw [List.map_append, List.map_cons, List.map_nil, hself]
        congr 1
        · apply List.map_congr_left
          intro i hi
          exact (hsame i fun e => hm (e ▸ hi)).symm
        · unfold row
          rw [numbers_none hm]
          rfl
    rw [ht]
    simp [table]

theorem narrow (gs : List (Kid α × Nat × Nat)) : ¬ Ipma.Wide (table gs) := fun h => h (show 0 &&& 1 = 0 by decide)

theorem table_layout (gs : List (Kid α × Nat × Nat)) : Ipma.layout (table gs) = assocLayout gs := by
  unfold Ipma.layout assocLayout table
  simp only [List.length_map, List.flatMap_map]
  congr 2
  apply congrArg (fun f => (owners gs).flatMap f)
  funext i
  unfold Ipma.entryBytes row
  simp only [List.length_map, List.flatMap_map]
  rw [if_pos (by decide)]
  congr 2
  apply congrArg (fun f => (numbers i gs).flatMap f)
  funext a
  unfold Ipma.assocBytes
  rw [if_neg fun h => h (show 0 &&& 1 = 0 by decide)]

theorem sum_le {β : Type} (l : List β) (f : β → Nat) (n : Nat) (h : ∀ x ∈ l, f x ≤ n) : (l.map f).sum ≤ n * l.length := by
  induction l with
  | nil => simp
  | cons x l ih =>
    have h1 := h x (by simp)
    have h2 := ih fun y hy => h y (by simp [hy])
    simp only [List.map_cons, List.sum_cons, List.length_cons, Nat.mul_add]
    omega

theorem assocLayout_length (gs : List (Kid α × Nat × Nat)) (hn : gs.length ≤ 127) : (assocLayout gs).length ≤ 16526 := by
  have h : ((owners gs).flatMap fun i => be 2 i ++ (be 1 (numbers i gs).length ++
      (numbers i gs).flatMap fun a => be 1 (a.1 * 2 ^ 7 + a.2))).length ≤ 130 * (owners gs).length := by
    rw [List.length_flatMap]
    refine sum_le _ _ _ fun i _ => ?_
    have h1 := numbers_length i gs
    have : ((numbers i gs).flatMap fun a => be 1 (a.1 * 2 ^ 7 + a.2)).length = 1 * (numbers i gs).length :=
      flatMap_length_const _ fun a _ => by simp
    simp only [List.length_append, be_length, this]
    omega
  have h2 := owners_length gs
  unfold assocLayout fullBox
  rw [box_length]
  simp only [List.length_append, be_length]
  omega

theorem table_trip (gs : List (Kid α × Nat × Nat)) (hn : gs.length ≤ 127) (hi : ∀ g ∈ gs, g.2.1 < 2 ^ 16) (he : ∀ g ∈ gs, g.2.2 < 2) :
    BoxRoundTrip (Ipma.size (table gs)) (Ipma.serialize (table gs)) Ipma.parse (table gs) (assocLayout gs) := by
  rw [← table_layout]
  refine Ipma.c36_round_trip_partial _ ?_ (.inl (narrow gs))
  have hentry : ∀ e ∈ (table gs).entries, ∃ i ∈ owners gs, e = row gs i := by
    intro e h
    obtain ⟨i, h1, h2⟩ := List.mem_map.1 h
    exact ⟨i, h1, h2.symm⟩
  refine ⟨by show 0 < 256; decide, by show 0 < 2 ^ 24; decide, ?_, ?_, ?_, ?_, ?_⟩
  · intro e h
    obtain ⟨i, h1, rfl⟩ := hentry e h
    obtain ⟨g, hg, rfl⟩ := owners_sub gs i h1
    have := hi g hg
    exact ⟨by show g.2.1 < _; omega, fun _ => this⟩
  · intro e h
    obtain ⟨i, h1, rfl⟩ := hentry e h
    have := numbers_length i gs
    show ((numbers i gs).map _).length < 2 ^ 8
    rw [List.length_map]
    omega
  · intro e h a ha
    obtain ⟨i, h1, rfl⟩ := hentry e h
    obtain ⟨b, hb, rfl⟩ := List.mem_map.1 ha
    obtain ⟨_, g, hg, e⟩ := numbers_mem hb
    have := he g hg
    show b.1 < 2
    omega
  · intro e h a ha
    obtain ⟨i, h1, rfl⟩ := hentry e h
    obtain ⟨b, hb, rfl⟩ := List.mem_map.1 ha
    have := (numbers_mem hb).1
    rw [if_neg (narrow gs)]
    show b.2 < 2 ^ 7
    omega
  · rw [table_layout]
    have := assocLayout_length gs hn
    omega

/-! ## The boxes -/

theorem ipco_stays : ¬ Dropped (fcc 'i' 'p' 'c' 'o') := by decide
theorem ipma_stays : ¬ Dropped (fcc 'i' 'p' 'm' 'a') := by decide

theorem ipco_survives {C : Class α} {ks : List (Kid α)} (h : Family C ks) (hl : 8 + (wire ks).length < 4294967296) :
    Survives (sub C) (fcc 'i' 'p' 'c' 'o') (.ipco (vals ks)) (box (fcc 'i' 'p' 'c' 'o') (wire ks)) := by
  have hw : WritesAll C ks := fun k hk => survives_writes (h k hk).1
  have hr : Reads (ipco C) (fcc 'i' 'p' 'c' 'o') (vals ks) (box (fcc 'i' 'p' 'c' 'o') (wire ks)) := by
    refine reads_of ?_ hl (by unfold GoodType; decide)
    have := adds_app [] ks
    rw [List.nil_append, h.stay] at this
    exact parsesAt_addAll h.readable rfl hl this
  have hs : Writes (ipco C) (vals ks) (box (fcc 'i' 'p' 'c' 'o') (wire ks)) := by
    refine Writes.of (listSize_writes hw hl) ?_ hl
    show EmitsFull (serBase (listSize C 8 (vals ks)) typeIpco ;; serList C (vals ks) ;; W.assertFull) _
    rw [listSize_writes hw hl]
    exact (emits_serBase _ _).then (emits_writes hw).thenAssert
  refine ⟨hs.size, hs.write, reads_into Sub.ipco hr fun hd ht => ?_⟩
  show (if hd.type = typeIpco then _ else _) = _
  exact if_pos ht

theorem ipma_survives {C : Class α} (gs : List (Kid α × Nat × Nat)) (hn : gs.length ≤ 127) (hi : ∀ g ∈ gs, g.2.1 < 2 ^ 16)
    (he : ∀ g ∈ gs, g.2.2 < 2) : Survives (sub C) (fcc 'i' 'p' 'm' 'a') (.ipma (table gs)) (assocLayout gs) := by
  have h := table_trip gs hn hi he
  have hl := assocLayout_length gs hn
  refine ⟨h.length.symm, h.write, ?_⟩
  unfold assocLayout fullBox at h hl ⊢
  rw [box_length] at hl
  refine reads_ofTrip (f := Sub.ipma) h (by omega) (by unfold GoodType; decide) fun hd ht => ?_
  show (if hd.type = typeIpco then _ else if hd.type = Ipma.typeIpma then _ else _) = _
  rw [if_neg (by rw [ht]; decide)]
  exact if_pos ht

/-- The box after calls and `n` files. -/
def rep (n : Nat) (gs : List (Kid α × Nat × Nat)) : T α :=
  ⟨List.replicate n (.ipco []) ++ [.ipco (gs.map (·.1.val)), .ipma (table gs)], n, some (n + 1)⟩

def kids (n : Nat) (gs : List (Kid α × Nat × Nat)) : List (Kid (Sub α)) :=
  List.replicate n ⟨fcc 'i' 'p' 'c' 'o', .ipco [], box (fcc 'i' 'p' 'c' 'o') []⟩ ++
    [⟨fcc 'i' 'p' 'c' 'o', .ipco (gs.map (·.1.val)), box (fcc 'i' 'p' 'c' 'o') (gs.flatMap fun g => g.1.bytes)⟩,
      ⟨fcc 'i' 'p' 'm' 'a', .ipma (table gs), assocLayout gs⟩]

theorem vals_kids (n : Nat) (gs : List (Kid α × Nat × Nat)) : vals (kids n gs) = (rep n gs).list := by
  simp [vals, kids, rep]

theorem wire_kids (n : Nat) (gs : List (Kid α × Nat × Nat)) : box (fcc 'i' 'p' 'r' 'p') (wire (kids n gs)) = layout n gs := by
  unfold layout wire kids
  rw [List.flatMap_append]
  congr 1
  congr 1
  · induction n with
    | zero => rfl
    | succ n ih => rw [List.replicate_succ, List.replicate_succ, List.flatMap_cons, List.flatten_cons, ih]
  · simp

/-- What the calls so far satisfy. -/
structure Good (C : Class α) (n : Nat) (gs : List (Kid α × Nat × Nat)) : Prop where
  props : ∀ g ∈ gs, Survives C g.1.type g.1.val g.1.bytes ∧ ¬ Dropped g.1.type
  item : ∀ g ∈ gs, g.2.1 < 2 ^ 16
  essential : ∀ g ∈ gs, g.2.2 < 2
  count : gs.length ≤ 127
  size : 2 ^ 16 + 8 * n + (gs.map fun g => g.1.bytes.length).sum < 2 ^ 32

theorem wire_length (n : Nat) (gs : List (Kid α × Nat × Nat)) (hn : gs.length ≤ 127) :
    8 + (wire (kids n gs)).length ≤ 2 ^ 16 + 8 * n + (gs.map fun g => g.1.bytes.length).sum := by
  have h := assocLayout_length gs hn
  have e : (List.replicate n (box (fcc 'i' 'p' 'c' 'o') [])).flatten.length = 8 * n := by
    induction n with
    | zero => rfl
    | succ n ih => rw [List.replicate_succ, List.flatten_cons, List.length_append, ih, box_length]; simp; omega
  have : (box (fcc 'i' 'p' 'r' 'p') (wire (kids n gs))).length = (layout n gs).length := by rw [wire_kids]
  unfold layout at this
  rw [box_length, box_length] at this
  simp only [List.length_append, e, box_length, List.length_flatMap] at this
  omega

theorem kids_family {C : Class α} {n : Nat} {gs : List (Kid α × Nat × Nat)} (h : Good C n gs) : Family (sub C) (kids n gs) := by
  intro k hk
  unfold kids at hk
  rcases List.mem_append.1 hk with hk | hk
  · rw [List.eq_of_mem_replicate hk]
    exact ⟨ipco_survives (C := C) (ks := []) (by intro x hx; cases hx) (by simp [wire]), ipco_stays⟩
  · simp only [List.mem_cons, List.not_mem_nil, or_false] at hk
    rcases hk with rfl | rfl
    · have hf : Family C (gs.map (·.1)) := by
        intro x hx
        obtain ⟨g, hg, rfl⟩ := List.mem_map.1 hx
        exact h.props g hg
      have hw : wire (gs.map (·.1)) = gs.flatMap fun g => g.1.bytes := by simp [wire, List.flatMap_map]
      have hv : vals (gs.map (·.1)) = gs.map (·.1.val) := by simp [vals]
      have := ipco_survives hf (by rw [hw, List.length_flatMap]; have := h.size; omega)
      rw [hw, hv] at this
      exact ⟨this, ipco_stays⟩
    · exact ⟨ipma_survives gs h.count h.item h.essential, ipma_stays⟩

theorem adds_kids (n : Nat) (gs : List (Kid α × Nat × Nat)) : adds addAtom create (kids n gs) = .ok (rep (n + 1) gs) := by
  have step : ∀ m : Nat, ∀ l : List (Sub α), l ≠ [] → adds addAtom ⟨l, l.length - 1, none⟩ (kids m gs) =
      .ok ⟨l ++ (List.replicate m (.ipco []) ++ [.ipco (gs.map (·.1.val)), .ipma (table gs)]), l.length + m, some (l.length + m + 1)⟩ := by
    intro m
    induction m with
    | zero =>
      intro l _
      simp [kids, adds, addAtom, Res.bind, show Tree.isFree (fcc 'i' 'p' 'c' 'o') = false by decide,
        show Tree.isFree (fcc 'i' 'p' 'm' 'a') = false by decide]
    | succ m ih =>
      intro l _
      have e : kids (m + 1) gs = ⟨fcc 'i' 'p' 'c' 'o', .ipco [], box (fcc 'i' 'p' 'c' 'o') []⟩ :: kids m gs := by
        simp [kids, List.replicate_succ]
      rw [e]
      simp only [adds, show Tree.isFree (fcc 'i' 'p' 'c' 'o') = false by decide, Bool.false_eq_true, if_false, addAtom, Res.bind]
      have := ih (l ++ [.ipco []]) (by simp)
      simp only [List.length_append, List.length_cons, List.length_nil, Nat.add_sub_cancel, Nat.zero_add] at this
      rw [this, List.replicate_succ]
      simp only [List.append_assoc, List.cons_append, List.nil_append]
      rw [show l.length + 1 + m = l.length + (m + 1) by omega]
  have := step n [.ipco []] (by simp)
  simp only [List.length_cons, List.length_nil] at this
  unfold create rep
  rw [List.replicate_succ]
  simp only [Nat.zero_add, Nat.sub_self] at this
  rw [this]
  simp [Nat.add_comm]

theorem written {C : Class α} {n : Nat} {gs : List (Kid α × Nat × Nat)} (h : Good C n gs) :
    runW ((iprp C).size (rep n gs)) ((iprp C).ser (rep n gs)) = .ok (layout n gs) := by
  have hw : WritesAll (sub C) (kids n gs) := fun k hk => survives_writes (kids_family h k hk).1
  have hl : 8 + (wire (kids n gs)).length < 4294967296 := by
    have := wire_length n gs h.count
    have := h.size
    omega
  rw [← wire_kids]
  have : Writes (iprp C) (rep n gs) (box (fcc 'i' 'p' 'r' 'p') (wire (kids n gs))) := by
    refine Writes.of (by show listSize (sub C) 8 (rep n gs).list = _; rw [← vals_kids]; exact listSize_writes hw hl) ?_ hl
    show EmitsFull (serBase (listSize (sub C) 8 (rep n gs).list) typeIprp ;; serList (sub C) (rep n gs).list ;; W.assertFull) _
    rw [← vals_kids, listSize_writes hw hl]
    exact (emits_serBase _ _).then (emits_writes hw).thenAssert
  exact this.write

theorem read {C : Class α} {n : Nat} {gs : List (Kid α × Nat × Nat)} (h : Good C n gs) :
    Reads (iprp C) (fcc 'i' 'p' 'r' 'p') (rep (n + 1) gs) (layout n gs) := by
  have hl : 8 + (wire (kids n gs)).length < 4294967296 := by
    have := wire_length n gs h.count
    have := h.size
    omega
  rw [← wire_kids]
  exact reads_of (parsesAt_addAll (kids_family h).readable rfl hl (adds_kids n gs)) hl (by unfold GoodType; decide)

theorem reopen_rep {C : Class α} {n : Nat} {gs : List (Kid α × Nat × Nat)} (h : Good C n gs) :
    reopen C (some (rep n gs)) = .ok (some (rep (n + 1) gs)) := by
  obtain ⟨hd, _, _, hr⟩ := (read h).2 []
  rw [List.append_nil] at hr
  simp only [reopen]
  rw [written h]
  simp only [Res.bind]
  rw [hr]

/-! ## The calls -/

theorem get_rep (n : Nat) (gs : List (Kid α × Nat × Nat)) : (rep n gs).list[n]? = some (.ipco (gs.map (·.1.val))) ∧
    (rep n gs).list[n + 1]? = some (.ipma (table gs)) := by
  unfold rep
  constructor
  · rw [List.getElem?_append_right (by simp)]; simp
  · rw [List.getElem?_append_right (by simp)]; simp

theorem set_rep (n : Nat) (gs : List (Kid α × Nat × Nat)) (a b : Sub α) :
    ((rep n gs).list.set n a).set (n + 1) b = List.replicate n (.ipco []) ++ [a, b] := by
  unfold rep
  simp only
  rw [List.set_append_right _ _ (by simp), List.set_append_right _ _ (by simp)]
  simp

theorem add_eq (gs : List (Kid α × Nat × Nat)) (g : Kid α × Nat × Nat) (hn : gs.length < 127) :
    Ipma.addProperty ⟨gs.map (·.1.val), table gs⟩ g.1.val g.2.1 g.2.2 = ⟨(gs ++ [g]).map (·.1.val), table (gs ++ [g])⟩ := by
  rw [← added_eq gs (by omega), ← added_eq (gs ++ [g]) (by simp; omega)]
  simp [Ipma.added, plain, List.foldl_append]

theorem add_rep (n : Nat) (gs : List (Kid α × Nat × Nat)) (g : Kid α × Nat × Nat) (hn : gs.length < 127) :
    addMetaItemProperty (some (rep n gs)) g.1.val g.2.1 g.2.2 = .ok (some (rep n (gs ++ [g]))) := by
  unfold addMetaItemProperty addItemProperty
  have h1 := (get_rep n gs).1
  have h2 := (get_rep n gs).2
  have hi : needIpma (rep n gs) = rep n gs := rfl
  simp only [Option.getD_some, hi]
  rw [show (rep n gs).ipma = some (n + 1) from rfl, show (rep n gs).ipco = n from rfl]
  simp only [h1, h2, add_eq gs g hn, set_rep]
  rfl

theorem add_none (g : Kid α × Nat × Nat) :
    addMetaItemProperty (none : Option (T α)) g.1.val g.2.1 g.2.2 = .ok (some (rep 0 [g])) := by
  have := add_rep 0 [] g (by simp)
  unfold addMetaItemProperty at this ⊢
  have e : addItemProperty (rep 0 []) g.1.val g.2.1 g.2.2 = addItemProperty create g.1.val g.2.1 g.2.2 := rfl
  rw [Option.getD_some, e] at this
  exact this

theorem get_given {C : Class α} {n : Nat} {gs : List (Kid α × Nat × Nat)} (h : Good C n gs) (item : Nat) :
    propertiesOfMetaItem (some (rep n gs)) item = .ok (given item gs) := by
  unfold propertiesOfMetaItem getPropertiesOfItem
  have h1 := (get_rep n gs).1
  have h2 := (get_rep n gs).2
  have hc := h.count
  rw [Option.getD_some, show (rep n gs).ipma = some (n + 1) from rfl, show (rep n gs).ipco = n from rfl]
  simp only [h1, h2]
  rw [← added_eq gs (by omega), Ipma.c51_properties _ (by simp [plain]; omega)]
  unfold Ipma.attached given plain
  rw [List.filter_map, List.map_map]
  congr 1

def later (as : List (Act α)) : Nat := (as.filter fun a => match a with | .file => true | _ => false).length

theorem acted_rep {C : Class α} (as : List (Act α)) : ∀ (n : Nat) (gs : List (Kid α × Nat × Nat)),
    Good C (n + later as) (gs ++ gifts as) →
      acted C as (some (rep n gs)) = .ok (some (rep (n + later as) (gs ++ gifts as))) := by
  induction as with
  | nil => intro n gs _; simp [acted, later, gifts]
  | cons a as ih =>
    intro n gs h
    cases a with
    | add p item essential =>
      have e1 : gifts (.add p item essential :: as) = (p, item, essential) :: gifts as := by simp [gifts]
      have e2 : later (.add p item essential :: as) = later as := by simp [later]
      rw [e1, e2] at h ⊢
      have hc := h.count
      simp only [List.length_append, List.length_cons] at hc
      simp only [acted, act]
      rw [add_rep n gs (p, item, essential) (by omega)]
      simp only [Res.bind]
      rw [ih n (gs ++ [(p, item, essential)]) (by rw [List.append_assoc]; exact h), List.append_assoc]
      rfl
    | file =>
      have e1 : gifts (.file :: as : List (Act α)) = gifts as := by simp [gifts]
      have e2 : later (.file :: as : List (Act α)) = later as + 1 := by simp [later]
      rw [e1, e2] at h ⊢
      have hg : Good C n gs := by
        refine ⟨fun g hg => h.props g (by simp [hg]), fun g hg => h.item g (by simp [hg]), fun g hg => h.essential g (by simp [hg]), ?_, ?_⟩
        · have := h.count; simp only [List.length_append] at this; omega
        · have := h.size; simp only [List.map_append, List.sum_append] at this; omega
      simp only [acted, act]
      rw [reopen_rep hg]
      simp only [Res.bind]
      rw [ih (n + 1) gs (by rw [show n + 1 + later as = n + (later as + 1) by omega]; exact h),
        show n + 1 + later as = n + (later as + 1) by omega]

theorem acted_eq {C : Class α} (acts : List (Act α)) (h : Fits C acts) : acted C acts none =
    .ok (if gifts acts = [] then none else some (rep (files acts) (gifts acts))) := by
  induction acts with
  | nil => rfl
  | cons a as ih =>
    cases a with
    | file => exact ih ⟨h.props, h.item, h.essential, h.count, h.size⟩
    | add p item essential =>
      have e1 : gifts (.add p item essential :: as) = (p, item, essential) :: gifts as := by simp [gifts]
      have e2 : files (.add p item essential :: as) = later as := rfl
      have hg : Good C (0 + later as) ([(p, item, essential)] ++ gifts as) := by
        have := h.size
        rw [e2, e1] at this
        refine ⟨fun g hg => h.props g (by rw [e1]; exact hg), fun g hg => h.item g (by rw [e1]; exact hg),
          fun g hg => h.essential g (by rw [e1]; exact hg), by have := h.count; rw [e1] at this; exact this, ?_⟩
        rw [Nat.zero_add]
        exact this
      rw [e1, e2]
      simp only [acted, act]
      rw [add_none (p, item, essential)]
      simp only [Res.bind]
      rw [acted_rep as 0 _ hg, Nat.zero_add]
      simp

theorem good {C : Class α} {acts : List (Act α)} (h : Fits C acts) : Good C (files acts) (gifts acts) :=
  ⟨h.props, h.item, h.essential, h.count, h.size⟩

/-! ## The property -/

/-- With files written and read anywhere between the calls, each item has exactly the properties that were given to it, in order. -/
theorem c103_properties_partial (C : Class α) (acts : List (Act α)) (h : Fits C acts) (hg : gifts acts ≠ []) :
    ∃ x, acted C acts none = .ok x ∧ ∀ item, propertiesOfMetaItem x item = .ok (given item (gifts acts)) := by
  rw [acted_eq acts h, if_neg hg]
  exact ⟨_, rfl, get_given (good h)⟩

/-- The box that is written, and that it can be read with anything after it. Every file puts an empty container before the others. -/
theorem c103_box_partial (C : Class α) (acts : List (Act α)) (h : Fits C acts) (hg : gifts acts ≠ []) :
    ∃ x, acted C acts none = .ok (some x) ∧
      runW ((iprp C).size x) ((iprp C).ser x) = .ok (layout (files acts) (gifts acts)) ∧
      ∀ rest, ∃ hd y, parseAtom (iprp C).parse (layout (files acts) (gifts acts) ++ rest) = .ok (y, hd, rest) ∧
        ∀ item, propertiesOfMetaItem (some y) item = .ok (given item (gifts acts)) := by
  rw [acted_eq acts h, if_neg hg]
  refine ⟨_, rfl, written (good h), fun rest => ?_⟩
  obtain ⟨hd, _, _, hr⟩ := (read (good h)).2 rest
  refine ⟨hd, _, hr, fun item => ?_⟩
  have hgood := good h
  have e : propertiesOfMetaItem (some (rep (files acts + 1) (gifts acts))) item =
      propertiesOfMetaItem (some (rep (files acts) (gifts acts))) item := by
    unfold propertiesOfMetaItem getPropertiesOfItem
    simp only [Option.getD_some]
    rw [show (rep (files acts + 1) (gifts acts)).ipma = some (files acts + 1 + 1) from rfl,
      show (rep (files acts + 1) (gifts acts)).ipco = files acts + 1 from rfl,
      show (rep (files acts) (gifts acts)).ipma = some (files acts + 1) from rfl,
      show (rep (files acts) (gifts acts)).ipco = files acts from rfl]
    simp only [(get_rep (files acts + 1) (gifts acts)).1, (get_rep (files acts + 1) (gifts acts)).2,
      (get_rep (files acts) (gifts acts)).1, (get_rep (files acts) (gifts acts)).2]
  rw [e]
  exact get_given hgood item

/-- **The box grows.** Nothing but reading a file and writing it makes the box eight bytes longer each time. -/
theorem c103_grows (C : Class α) (acts : List (Act α)) (n : Nat) (h : Fits C (acts ++ List.replicate n .file)) (hg : gifts acts ≠ []) :
    ∃ x y b c, acted C acts none = .ok (some x) ∧ acted C (acts ++ List.replicate n .file) none = .ok (some y) ∧
      runW ((iprp C).size x) ((iprp C).ser x) = .ok b ∧ runW ((iprp C).size y) ((iprp C).ser y) = .ok c ∧
      c.length = b.length + 8 * n := by
  have e1 : gifts (acts ++ List.replicate n .file) = gifts acts := by
    unfold gifts
    rw [List.filterMap_append]
    refine (congrArg _ (List.filterMap_eq_nil_iff.2 fun a ha => ?_)).trans (List.append_nil _)
    rw [List.eq_of_mem_replicate ha]
  have e2 : ∀ as : List (Act α), gifts as ≠ [] → files (as ++ List.replicate n .file) = files as + n := by
    intro as
    induction as with
    | nil => intro h; exact absurd rfl h
    | cons a as ih =>
      intro hne
      cases a with
      | file => exact ih hne
      | add p i s =>
        show later (as ++ List.replicate n .file) = later as + n
        unfold later
        rw [List.filter_append, List.length_append]
        congr 1
        rw [List.filter_eq_self.2 (by intro a ha; rw [List.eq_of_mem_replicate ha])]
        simp
  have h0 : Fits C acts := by
    have hs := h.size
    rw [e1, e2 acts hg] at hs
    refine ⟨by rw [← e1]; exact h.props, by rw [← e1]; exact h.item, by rw [← e1]; exact h.essential, by rw [← e1]; exact h.count, by omega⟩
  obtain ⟨x, hx, hb, _⟩ := c103_box_partial C acts h0 hg
  obtain ⟨y, hy, hc, _⟩ := c103_box_partial C _ h (by rw [e1]; exact hg)
  refine ⟨x, y, _, _, hx, hy, hb, hc, ?_⟩
  rw [e1, e2 acts hg]
  have el : ∀ m, (List.replicate m (box (fcc 'i' 'p' 'c' 'o') [])).flatten.length = 8 * m := by
    intro m
    induction m with
    | zero => rfl
    | succ m ih => rw [List.replicate_succ, List.flatten_cons, List.length_append, ih, box_length]; simp; omega
  unfold layout
  simp only [box_length, List.length_append, el]
  omega

/-- **C103 fails before the first call.** Asking for the properties of an item then reads through a null pointer, also after files. -/
theorem c103_not_asked (C : Class α) (n : Nat) (item : Nat) :
    ∃ x, acted C (List.replicate n .file) none = .ok x ∧ propertiesOfMetaItem x item = .ub := by
  refine ⟨none, ?_, rfl⟩
  induction n with
  | zero => rfl
  | succ n ih => exact ih

/-- A property that is an unknown box. -/
def prop (t : Nat) (d : Bytes) : Kid (Nat × Bytes) := ⟨t, (t, d), box t d⟩

/-- `n` properties, all for item 1 but the last one, for item 2. -/
def many (n : Nat) : List (Act (Nat × Bytes)) :=
  (List.replicate (n - 1) (.add (prop (fcc 'p' 'r' 'o' 'p') []) 1 0)) ++ [.add (prop (fcc 'p' 'r' 'o' 'p') [7]) 2 0]

/-- **C103 fails for more than 127 properties.** The 128th is found before the file; after it the question is refused. The 129th becomes
the first one. -/
theorem c103_not_many :
    ((acted unknown (many 128) none).bind fun x => propertiesOfMetaItem x 2) = .ok [(fcc 'p' 'r' 'o' 'p', [7])] ∧
    ((acted unknown (many 128 ++ [.file]) none).bind fun x => propertiesOfMetaItem x 2) = .err .badParam ∧
    ((acted unknown (many 129 ++ [.file]) none).bind fun x => propertiesOfMetaItem x 2) = .ok [(fcc 'p' 'r' 'o' 'p', [])] := by
  decide +kernel

/-- **C103 fails for properties that are free space.** They are dropped when read, and the others take their numbers. -/
theorem c103_not_free :
    ((acted unknown [.add (prop (fcc 'f' 'r' 'e' 'e') [1]) 1 0, .add (prop (fcc 'p' 'r' 'o' 'p') [7]) 2 0, .file] none).bind fun x =>
      propertiesOfMetaItem x 1) = .ok [(fcc 'p' 'r' 'o' 'p', [7])] ∧
    ((acted unknown [.add (prop (fcc 'f' 'r' 'e' 'e') [1]) 1 0, .add (prop (fcc 'p' 'r' 'o' 'p') [7]) 2 0, .file] none).bind fun x =>
      propertiesOfMetaItem x 2) = .err .badParam := by
  decide +kernel

/-! ## A case -/

namespace Example103

theorem prop_survives (t : Nat) (d : Bytes) (ht : GoodType t) (hd : 8 + d.length < 4294967296) :
    Survives unknown t (t, d) (box t d) := by
  have e : UserData.memberSize (t, d) = 8 + d.length := by unfold UserData.memberSize; simp only; omega
  refine survives_of e ?_ ?_ hd ht
  · show EmitsFull (UserData.putMember (t, d)) _
    unfold UserData.putMember
    rw [if_neg (show ¬ t = typeUuid from ht.uuid), e]
    exact (emits_serBase _ _).then (emits_bytes d).thenAssert
  · show ParsesAt (UserData.parseItem (fun _ => false) ⟨8 + d.length, t, [], 0, 8⟩) 8 d (t, d)
    unfold UserData.parseItem
    rw [if_neg (by intro c; rcases c with c | c; exact ht.uuid c; cases c)]
    refine parsesAt_bytesRead ?_
    refine ParsesAt.bind_nil ((parses_getBytes (n := w32(8 + d.length + (4294967296 - 8))) (bs := d) (by omega)).at _) ?_
    exact (parses_pure _).at _

def acts : List (Act (Nat × Bytes)) :=
  [.file, .add (prop (fcc 'i' 's' 'p' 'x') [1, 2]) 5 0, .file, .add (prop (fcc 'i' 'r' 'o' 't') [3]) 9 1, .file, .file,
    .add (prop (fcc 'c' 'o' 'l' 'x') []) 5 1]

theorem fits : Fits unknown acts := by
  refine ⟨?_, by decide, by decide, by decide, by decide⟩
  intro g hg
  have : gifts acts = [(prop (fcc 'i' 's' 'p' 'x') [1, 2], 5, 0), (prop (fcc 'i' 'r' 'o' 't') [3], 9, 1), (prop (fcc 'c' 'o' 'l' 'x') [], 5, 1)] := rfl
  rw [this] at hg
  simp only [List.mem_cons, List.not_mem_nil, or_false] at hg
  rcases hg with rfl | rfl | rfl
  all_goals exact ⟨prop_survives _ _ (by unfold GoodType; decide) (by decide), by decide⟩

example : given 5 (gifts acts) = [(fcc 'i' 's' 'p' 'x', [1, 2]), (fcc 'c' 'o' 'l' 'x', [])] ∧ files acts = 3 := by decide

example : ∃ x, acted unknown acts none = .ok x ∧ propertiesOfMetaItem x 9 = .ok [(fcc 'i' 'r' 'o' 't', [3])] := by
  obtain ⟨x, h1, h2⟩ := c103_properties_partial unknown acts fits (by simp [acts, gifts])
  exact ⟨x, h1, h2 9⟩

example : Fits unknown (acts ++ List.replicate 2 .file) := by
  have h := fits
  exact ⟨h.props, h.item, h.essential, h.count, by decide⟩

end Example103

end Verif.Iprp
