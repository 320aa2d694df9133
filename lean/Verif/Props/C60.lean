import Verif.Model.Iref
import Verif.Spec.Iref
import Verif.Lemmas.Auto

/-!
# C60: References between items are kept and written
-/

namespace Verif.Iref

def call (s : S) : Call → Res S
  | .one i t to => (addReference s i t to).bind fun x => .ok x.1
  | .many i t to => .ok (addReferences s i t to)

def run : List Call → S → Res S
  | [], s => .ok s
  | c :: cs, s => (call s c).bind (run cs)

/-! ## The lists of references -/

def ref (large : Bool) (g : Group) : Ref := ⟨g.type, g.item, g.ids, large⟩

theorem mem_pairs (calls : List Call) (p : Nat × Nat) : p ∈ pairs calls ↔ ∃ c ∈ calls, c.pair = p := by
  induction calls with
  | nil => simp [pairs]
  | cons c cs ih =>
    simp only [pairs, List.mem_cons, List.mem_filter, ih, bne_iff_ne, ne_eq]
    constructor
    · rintro (rfl | ⟨⟨x, hx, rfl⟩, -⟩)
      · exact ⟨c, .inl rfl, rfl⟩
      · exact ⟨x, .inr hx, rfl⟩
    · rintro ⟨x, rfl | hx, rfl⟩
      · exact .inl rfl
      · by_cases h : x.pair = c.pair
        · exact .inl h
        · exact .inr ⟨⟨x, hx, rfl⟩, h⟩

theorem pairs_snoc (calls : List Call) (c : Call) :
    pairs (calls ++ [c]) = if c.pair ∈ pairs calls then pairs calls else pairs calls ++ [c.pair] := by
  induction calls with
  | nil => simp [pairs]
  | cons d ds ih =>
    have hm : c.pair ∈ pairs (d :: ds) ↔ c.pair = d.pair ∨ c.pair ∈ pairs ds := by
      simp only [pairs, List.mem_cons, List.mem_filter, bne_iff_ne, ne_eq]
      constructor
      · rintro (h | h)
        · exact .inl h
        · exact .inr h.1
      · rintro (h | h)
        · exact .inl h
        · by_cases h' : c.pair = d.pair
          · exact .inl h'
          · exact .inr ⟨h, h'⟩
    have e : pairs ((d :: ds) ++ [c]) = d.pair :: (pairs (ds ++ [c])).filter fun p => p != d.pair := rfl
    have e' : pairs (d :: ds) = d.pair :: (pairs ds).filter fun p => p != d.pair := rfl
    rw [e, ih]
    by_cases h : c.pair = d.pair
    · rw [if_pos (hm.2 (.inl h)), e']
      split
      · rfl
      · simp [h]
    · by_cases h2 : c.pair ∈ pairs ds
      · rw [if_pos h2, if_pos (hm.2 (.inr h2)), e']
      · rw [if_neg h2, if_neg (fun x => (hm.1 x).elim h h2), e']
        simp [h]

theorem pairs_nodup (calls : List Call) : (pairs calls).Nodup := by
  induction calls with
  | nil => simp [pairs]
  | cons c cs ih =>
    simp only [pairs, List.nodup_cons]
    exact ⟨by simp, ih.filter _⟩

theorem references_snoc (calls : List Call) (c : Call) (p : Nat × Nat) :
    references (calls ++ [c]) p = references calls p ++ if c.pair = p then c.targets else [] := by
  unfold references
  rw [List.filter_append, List.flatMap_append]
  congr 1
  by_cases h : c.pair = p <;> simp [h]

theorem Proper.init {a b : List Call} (h : Proper (a ++ b)) : Proper a := by
  intro x c y e
  exact h x c (y ++ b) (by rw [e]; simp)

theorem references_append (a b : List Call) (p : Nat × Nat) : references (a ++ b) p = references a p ++ references b p := by
  unfold references
  rw [List.filter_append, List.flatMap_append]

theorem Bounded.init {a b : List Call} (h : Bounded (a ++ b)) : Bounded a := by
  intro p
  have := h p
  rw [references_append, List.length_append] at this
  omega

theorem references_ne {calls : List Call} (h : Proper calls) {p : Nat × Nat} (hp : p ∈ pairs calls) : references calls p ≠ [] := by
  obtain ⟨c, hc, rfl⟩ := (mem_pairs _ _).1 hp
  obtain ⟨a, b, rfl⟩ := List.append_of_mem hc
  have := h a c b rfl
  have ht : c.targets ≠ [] := by
    cases c with
    | one => simp [Call.targets]
    | many i t to => exact this.1
  intro e
  unfold references at e
  rw [List.flatMap_eq_nil_iff] at e
  exact ht (e c (by simp))

theorem references_nil {calls : List Call} {p : Nat × Nat} (hp : p ∉ pairs calls) : references calls p = [] := by
  unfold references
  rw [List.flatMap_eq_nil_iff]
  intro c hc
  simp only [List.mem_filter, beq_iff_eq] at hc
  exact absurd ((mem_pairs _ _).2 ⟨c, hc.1, hc.2⟩) hp

theorem find_group (large : Bool) (ps : List (Nat × Nat)) (f : Nat × Nat → List Nat) (item type : Nat) :
    (ps.map fun p => ref large ⟨p.2, p.1, f p⟩).find? (isRef item type) =
      if (item, type) ∈ ps then some (ref large ⟨type, item, f (item, type)⟩) else none := by
  induction ps with
  | nil => rfl
  | cons p ps ih =>
    obtain ⟨a, b⟩ := p
    simp only [List.map_cons, List.find?_cons, ih, List.mem_cons, Prod.mk.injEq]
    by_cases h : item = a ∧ type = b
    · obtain ⟨rfl, rfl⟩ := h
      simp [isRef, ref]
    · have : isRef item type (ref large ⟨b, a, f (a, b)⟩) = false := by
        simp only [isRef, ref, Bool.and_eq_false_iff, beq_eq_false_iff_ne]
        by_cases h1 : item = a
        · exact .inr fun e => h ⟨h1, e.symm⟩
        · exact .inl fun e => h1 e.symm
      rw [this]
      simp [h]

theorem change_group (large : Bool) (ps : List (Nat × Nat)) (hn : ps.Nodup) (f g : Nat × Nat → List Nat) (item type to : Nat)
    (h1 : (item, type) ∈ ps) (hg : ∀ p, g p = f p ++ if (item, type) = p then [to] else []) :
    changeFirst item type (fun r => { r with ids := r.ids ++ [to] }) (ps.map fun p => ref large ⟨p.2, p.1, f p⟩) =
      ps.map fun p => ref large ⟨p.2, p.1, g p⟩ := by
  induction ps with
  | nil => simp at h1
  | cons p ps ih =>
    obtain ⟨a, b⟩ := p
    simp only [List.map_cons, changeFirst]
    by_cases h : item = a ∧ type = b
    · obtain ⟨rfl, rfl⟩ := h
      rw [if_pos (by simp [isRef, ref])]
      congr 1
      · simp [ref, hg]
      · refine List.map_congr_left fun p hp => ?_
        have : (item, type) ≠ p := by
          rintro rfl
          exact (List.nodup_cons.1 hn).1 hp
        rw [hg, if_neg this, List.append_nil]
    · have hne : (item, type) ≠ (a, b) := by simpa using h
      rw [if_neg (by
        simp only [isRef, ref, Bool.and_eq_true, beq_iff_eq]
        rintro ⟨rfl, rfl⟩
        exact h ⟨rfl, rfl⟩)]
      congr 1
      · rw [hg, if_neg hne, List.append_nil]
      · exact ih (List.nodup_cons.1 hn).2 (by
          rcases List.mem_cons.1 h1 with h | h
          · exact absurd h hne
          · exact h)

/-- The state after the calls. -/
def after (calls : List Call) : S := if calls = [] then none else some (0, (groups calls).map (ref false))

theorem ensure_after (calls : List Call) : ensure (after calls) = (0, (pairs calls).map fun p => ref false ⟨p.2, p.1, references calls p⟩) := by
  unfold after ensure
  split
  · next h => subst h; rfl
  · simp [groups]

theorem after_snoc (calls : List Call) (c : Call) : after (calls ++ [c]) =
    some (0, (pairs (calls ++ [c])).map fun p => ref false ⟨p.2, p.1, references (calls ++ [c]) p⟩) := by
  unfold after groups
  rw [if_neg (by simp), List.map_map]
  rfl

theorem add_fresh (calls : List Call) (c : Call) (h : c.pair ∉ pairs calls) :
    addReferences (after calls) c.pair.1 c.pair.2 c.targets = after (calls ++ [c]) := by
  rw [after_snoc, pairs_snoc, if_neg h]
  unfold addReferences
  rw [ensure_after]
  simp only [List.map_append, List.map_cons, List.map_nil]
  congr 3
  · refine List.map_congr_left fun p hp => ?_
    have : c.pair ≠ p := by rintro rfl; exact h hp
    rw [references_snoc, if_neg this, List.append_nil]
  · rw [references_snoc, if_pos rfl, references_nil h]
    rfl

theorem add_one (calls : List Call) (hp : Proper calls) (item type to : Nat) (hb : (references calls (item, type)).length + 1 < 65536) :
    addReference (after calls) item type to = .ok (after (calls ++ [.one item type to]), (references calls (item, type)).length + 1) := by
  unfold addReference
  rw [ensure_after]
  simp only [getReferences, find_group]
  by_cases h : (item, type) ∈ pairs calls
  · have hne := references_ne hp h
    have hl : (references calls (item, type)).length ≠ 0 := by simpa using hne
    rw [if_pos h]
    show (if (references calls (item, type)).length = 0 then _ else if w16((references calls (item, type)).length + 1) = 0 then _ else _) = _
    rw [if_neg hl, if_neg (by omega), after_snoc, pairs_snoc, if_pos (by exact h)]
    have := change_group false (pairs calls) (pairs_nodup _) (references calls) (references (calls ++ [.one item type to])) item type to h
      (fun p => references_snoc calls _ p)
    rw [this]
    rfl
  · rw [if_neg h]
    simp only [Res.bind, List.length_nil, if_true]
    have := add_fresh calls (.one item type to) (by exact h)
    rw [← this, references_nil h]
    simp only [Call.pair, Call.targets, List.length_nil]
    rw [← ensure_after]
    rfl

theorem call_after {calls : List Call} {c : Call} (hp : Proper (calls ++ [c])) (hb : Bounded (calls ++ [c])) :
    call (after calls) c = .ok (after (calls ++ [c])) := by
  have h := hp calls c [] rfl
  have hb' := hb c.pair
  rw [references_snoc, if_pos rfl, List.length_append] at hb'
  cases c with
  | one i t to =>
    simp only [Call.pair, Call.targets, List.length_singleton] at hb'
    simp only [call]
    rw [add_one calls hp.init i t to hb']
    rfl
  | many i t to =>
    have hf : (i, t) ∉ pairs calls := fun h' => references_ne hp.init h' h.2
    exact congrArg Res.ok (add_fresh calls (.many i t to) hf)

theorem run_from (b : List Call) : ∀ a, Proper (a ++ b) → Bounded (a ++ b) → run b (after a) = .ok (after (a ++ b)) := by
  induction b with
  | nil => intro a _ _; rw [List.append_nil]; rfl
  | cons c b ih =>
    intro a hp hb
    have e : a ++ c :: b = (a ++ [c]) ++ b := by simp
    rw [e] at hp hb ⊢
    simp only [run]
    rw [call_after hp.init hb.init]
    exact ih _ hp hb

theorem run_after (calls : List Call) (hp : Proper calls) (hb : Bounded calls) : run calls none = .ok (after calls) :=
  run_from calls [] hp hb

theorem get_after (calls : List Call) (hne : calls ≠ []) (item type : Nat) :
    getReferences (after calls) item type = .ok (references calls (item, type)) := by
  unfold after
  rw [if_neg hne]
  simp only [getReferences, groups, List.map_map]
  have := find_group false (pairs calls) (references calls) item type
  simp only [Function.comp_def]
  rw [this]
  split
  · next h =>
    split at h
    · cases h
    · next h' => rw [references_nil h']
  · next r h =>
    split at h
    · next h' => injection h with h; rw [← h]; rfl
    · cases h

/-- **C60.** After any sequence of calls (several references at once only as the first ones, at most 65535 for
an item and a type) the references reported for each item and type are those added, in that order, and the
reference with an index is the one at that place; other indexes are refused. -/
theorem c60_answers (calls : List Call) (hp : Proper calls) (hb : Bounded calls) (hne : calls ≠ []) :
    ∃ s, run calls none = .ok s ∧ ∀ item type,
      getReferences s item type = .ok (references calls (item, type)) ∧
      ∀ k, (∀ i ∈ references calls (item, type), i < 65536) →
        getReference s item type (k + 1) = match (references calls (item, type))[k]? with
          | some i => .ok i
          | none => .err .badParam := by
  refine ⟨_, run_after calls hp hb, fun item type => ⟨get_after calls hne item type, fun k hk => ?_⟩⟩
  unfold getReference
  rw [get_after calls hne]
  simp only [Res.bind]
  by_cases h : k < (references calls (item, type)).length
  · rw [if_neg (by omega), if_neg (by omega)]
    simp only [Nat.add_sub_cancel]
    rw [List.getElem?_eq_getElem h]
    have := hk _ (List.getElem_mem h)
    simp only []
    congr 1
    omega
  · rw [if_pos (by omega), List.getElem?_eq_none (by omega)]

/-- The index returned by a call is the place of the new reference. -/
theorem c60_index (calls : List Call) (item type to : Nat) (hp : Proper calls) (hb : Bounded (calls ++ [.one item type to])) :
    ∃ s s' n, run calls none = .ok s ∧ addReference s item type to = .ok (s', n) ∧
      getReferences s' item type = .ok (references (calls ++ [.one item type to]) (item, type)) ∧
      (references (calls ++ [.one item type to]) (item, type))[n - 1]? = some to ∧
      n = (references (calls ++ [.one item type to]) (item, type)).length := by
  have hb' := hb (item, type)
  have e := references_snoc calls (.one item type to) (item, type)
  rw [if_pos (by rfl)] at e
  simp only [Call.targets] at e
  rw [e, List.length_append] at hb'
  refine ⟨_, _, _, run_after calls hp hb.init, add_one calls hp item type to hb', get_after _ (by simp) _ _, ?_, ?_⟩
  · rw [e]; simp
  · rw [e]; simp

/-! ## Writing -/

def Version (v : Nat) (large : Bool) : Prop := (v = 0 ∧ large = false) ∨ (v = 1 ∧ large = true)

theorem length_group (v : Nat) (g : Group) : (layoutGroup v g).length = 10 + idBytes v + idBytes v * g.ids.length := by
  unfold layoutGroup box
  simp only [List.length_append, be_length]
  rw [flatMap_length_const (c := idBytes v) _ (fun _ _ => be_length _ _)]
  omega

theorem refSize_eq {v : Nat} {large : Bool} (hv : Version v large) (g : Group) (h : (layoutGroup v g).length < 2 ^ 32) :
    refSize (ref large g) = (layoutGroup v g).length := by
  rw [length_group] at *
  rcases hv with ⟨rfl, rfl⟩ | ⟨rfl, rfl⟩ <;> simp [refSize, ref, idBytes] at * <;> omega

theorem put_group {v : Nat} {large : Bool} (hv : Version v large) (g : Group) (ht : 0 < g.type) {n : Nat}
    (hn : n = (layoutGroup v g).length) (hf : n < 2 ^ 32) : runW n (putRef n (ref large g)) = .ok (layoutGroup v g) := by
  have e : layoutGroup v g = be 4 n ++ be 4 g.type ++ (be (idBytes v) g.item ++ (be 2 g.ids.length ++ g.ids.flatMap (be (idBytes v)))) := by
    rw [hn, length_group]
    unfold layoutGroup box
    have : 8 + (be (idBytes v) g.item ++ be 2 g.ids.length ++ g.ids.flatMap (be (idBytes v))).length =
        10 + idBytes v + idBytes v * g.ids.length := by
      simp only [List.length_append, be_length]
      rw [flatMap_length_const (c := idBytes v) _ (fun _ _ => be_length _ _)]
      omega
    rw [this]
    simp only [List.append_assoc]
  have hp : ∀ x, Emits (if large then put32 x else put16 x) (be (idBytes v) x) := by
    intro x
    rcases hv with ⟨rfl, rfl⟩ | ⟨rfl, rfl⟩
    · exact emits_put16 x
    · exact emits_put32 x
  have key : EmitsFull (putRef n (ref large g))
      ([] ++ ((be 4 n ++ be 4 g.type) ++ (be (idBytes v) g.item ++ (be 2 g.ids.length ++ g.ids.flatMap (be (idBytes v)))))) := by
    have h0 : (ref large g).type ≠ 0 := Nat.pos_iff_ne_zero.1 ht
    unfold putRef
    rw [if_neg h0]
    exact emits_skip.then ((emits_serBase _ _).then ((hp _).then ((emits_put16 _).then (Emits.each _ fun x _ => hp x).thenAssert)))
  rw [List.nil_append] at key
  rw [e] at hn ⊢
  exact key.runW hn.symm hf

theorem length_layout (v : Nat) (l : List Group) : (layout v l).length = 12 + (l.flatMap (layoutGroup v)).length := by
  simp [layout, fullBox, box]; omega

theorem group_le {v : Nat} {l : List Group} {g : Group} (h : g ∈ l) : (layoutGroup v g).length ≤ (l.flatMap (layoutGroup v)).length := by
  obtain ⟨a, b, rfl⟩ := List.append_of_mem h
  simp only [List.flatMap_append, List.flatMap_cons, List.length_append]
  omega

theorem write_layout {v : Nat} {large : Bool} (hv : Version v large) (l : List Group) (hf : Fits v l) :
    write v 0 (l.map (ref large)) = .ok (layout v l) := by
  have hsz := hf.size
  have hlen := length_layout v l
  have hg : ∀ g ∈ l, refSize (ref large g) = (layoutGroup v g).length := fun g h =>
    refSize_eq hv g (by have := group_le (v := v) h; omega)
  have hsum : ((l.map (ref large)).map refSize).sum = (l.flatMap (layoutGroup v)).length := by
    rw [List.length_flatMap, List.map_map]
    congr 1
    exact List.map_congr_left hg
  unfold write
  rw [hsum]
  have e1 : w32(12 + (l.flatMap (layoutGroup v)).length) = (layout v l).length := by omega
  simp only [e1]
  generalize hn : (layout v l).length = n at *
  have heach : Emits (W.each (fun r => nested (refSize r) (putRef (refSize r) r)) (l.map (ref large))) (l.flatMap (layoutGroup v)) := by
    have h : ∀ g ∈ l, Emits (nested (refSize (ref large g)) (putRef (refSize (ref large g)) (ref large g))) (layoutGroup v g) := by
      intro g hm
      have := group_le (v := v) hm
      refine emits_nested (put_group hv g (hf.type g hm).1 (hg g hm) ?_) (hg g hm).symm
      rw [hg g hm]; omega
    clear hsum hn hlen hsz hf hg e1
    induction l with
    | nil => exact emits_skip
    | cons g l ih =>
      simp only [List.map_cons, W.each, List.flatMap_cons]
      exact (h g (by simp)).seq (ih fun x hx => h x (by simp [hx]))
  have hfull := (emits_serFull n typeIref v 0).then heach.thenAssert
  have e2 : layout v l = be 4 n ++ be 4 typeIref ++ be 1 v ++ be 3 0 ++ l.flatMap (layoutGroup v) := by
    have e3 : typeIref = fcc 'i' 'r' 'e' 'f' := by decide
    have e4 : 8 + (be 1 v ++ be 3 0 ++ l.flatMap (layoutGroup v)).length = n := by
      simp only [List.length_append, be_length]; omega
    unfold layout fullBox box
    rw [e4, e3]
    simp only [List.append_assoc]
  rw [e2]
  refine EmitsFull.runW ?_ ?_ (by omega)
  · simpa only [List.append_assoc] using hfull
  · rw [← e2]; exact hn

/-- **C60, writing.** The box is written as specified, with one list for each item and type. -/
theorem c60_written (calls : List Call) (hp : Proper calls) (hb : Bounded calls) (hne : calls ≠ []) (hf : Fits 0 (groups calls)) :
    ∃ l, run calls none = .ok (some (0, l)) ∧ write 0 0 l = .ok (layout 0 (groups calls)) := by
  refine ⟨(groups calls).map (ref false), ?_, write_layout (.inl ⟨rfl, rfl⟩) _ hf⟩
  rw [run_after calls hp hb]
  unfold after
  rw [if_neg hne]

/-! ## Reading -/

theorem orStop_ok {β : Type} {p : P Nat} {bs r : Bytes} {v k : Nat} (h : Parses p bs v) (stop : Res β) (f : Nat → PS → Res β) :
    orStop p ⟨bs ++ r, k⟩ stop f = f v ⟨r, k + bs.length⟩ := by
  unfold orStop
  rw [h r k]

theorem idLoop_large (cap count : Nat) (ids : List Nat) (rest : Bytes) (hi : ∀ i ∈ ids, i < 2 ^ 32) : ∀ (acc : List Nat) (k : Nat),
    4 * (acc.length + ids.length) ≤ cap →
    idLoop true cap count ids.length acc ⟨ids.flatMap (be 4) ++ rest, k⟩ = .ok (some (), acc ++ ids, ⟨rest, k + 4 * ids.length⟩) := by
  induction ids with
  | nil => intro acc k _; simp [idLoop]
  | cons i ids ih =>
    intro acc k hc
    simp only [List.length_cons] at hc
    simp only [List.length_cons, List.flatMap_cons, idLoop, if_true, List.append_assoc]
    rw [orStop_ok (parses_get32' (hi i (by simp))), if_pos (by omega), ih (fun x hx => hi x (by simp [hx])) _ _ (by simp; omega)]
    simp
    omega

theorem idLoop_small (count : Nat) (ids : List Nat) (rest : Bytes) (hi : ∀ i ∈ ids, i < 2 ^ 16) (hne : ids ≠ []) : ∀ (acc : List Nat) (k : Nat),
    acc.length + ids.length = count →
    idLoop false (2 * count) count ids.length acc ⟨ids.flatMap (be 2) ++ rest, k⟩ = .ub := by
  induction ids with
  | nil => simp at hne
  | cons i ids ih =>
    intro acc k hc
    simp only [List.length_cons] at hc
    simp only [List.length_cons, List.flatMap_cons, idLoop, List.append_assoc]
    rw [if_neg (by simp), orStop_ok (parses_get16' (hi i (by simp)))]
    split
    · by_cases h : ids = []
      · subst h
        simp only [List.length_nil] at hc
        omega
      · exact ih (fun x hx => hi x (by simp [hx])) h _ _ (by simp; omega)
    · rfl

theorem group_eq (v : Nat) (g : Group) : layoutGroup v g = be 4 (10 + idBytes v + idBytes v * g.ids.length) ++ (be 4 g.type ++
    (be (idBytes v) g.item ++ (be 2 g.ids.length ++ g.ids.flatMap (be (idBytes v))))) := by
  unfold layoutGroup box
  have : 8 + (be (idBytes v) g.item ++ be 2 g.ids.length ++ g.ids.flatMap (be (idBytes v))).length =
      10 + idBytes v + idBytes v * g.ids.length := by
    simp only [List.length_append, be_length]
    rw [flatMap_length_const (c := idBytes v) _ (fun _ _ => be_length _ _)]
    omega
  rw [this]
  simp only [List.append_assoc]

/-- Values in the range of their fields, for one list. -/
def Ok (v : Nat) (g : Group) : Prop :=
  g.type < 2 ^ 32 ∧ g.item < 256 ^ idBytes v ∧ (∀ i ∈ g.ids, i < 256 ^ idBytes v) ∧ g.ids.length < 65536

theorem readRef_large (proto : Hdr) (g : Group) (h : Ok 1 g) (rest : Bytes) :
    readRef true proto (layoutGroup 1 g ++ rest) = .ok (ref true g, (layoutGroup 1 g).length, rest) := by
  obtain ⟨h1, h2, h3, h4⟩ := h
  have hw : idBytes 1 = 4 := rfl
  rw [length_group, group_eq, hw]
  rw [hw] at h2 h3
  simp only [List.append_assoc]
  unfold readRef
  rw [orStop_ok (parses_get32' (by omega)), orStop_ok (parses_get32' h1), if_pos rfl, orStop_ok (parses_get32' (by omega)),
    orStop_ok (parses_get16' h4), if_pos rfl, idLoop_large _ _ _ _ (fun i hi => by have := h3 i hi; omega) _ _ (by simp)]
  simp only [Res.bind, be_length]
  rw [if_pos trivial]
  rfl

theorem readRef_empty (proto : Hdr) (g : Group) (h : Ok 0 g) (he : g.ids = []) (rest : Bytes) :
    readRef false proto (layoutGroup 0 g ++ rest) = .ok (ref false g, (layoutGroup 0 g).length, rest) := by
  obtain ⟨h1, h2, h3, h4⟩ := h
  have hw : idBytes 0 = 2 := rfl
  rw [length_group, group_eq, hw]
  rw [hw] at h2 h3
  simp only [List.append_assoc]
  unfold readRef
  rw [orStop_ok (parses_get32' (by omega)), orStop_ok (parses_get32' h1), if_neg (by simp), orStop_ok (parses_get16' (by omega)),
    orStop_ok (parses_get16' h4)]
  simp [he, idLoop, Res.bind, be_length, ref]

theorem readRef_small (proto : Hdr) (g : Group) (h : Ok 0 g) (he : g.ids ≠ []) (rest : Bytes) :
    readRef false proto (layoutGroup 0 g ++ rest) = .ub := by
  obtain ⟨h1, h2, h3, h4⟩ := h
  have hw : idBytes 0 = 2 := rfl
  rw [group_eq, hw]
  rw [hw] at h2 h3
  simp only [List.append_assoc]
  unfold readRef
  rw [orStop_ok (parses_get32' (by omega)), orStop_ok (parses_get32' h1), if_neg (by simp), orStop_ok (parses_get16' (by omega)),
    orStop_ok (parses_get16' h4), if_neg (by simp), idLoop_small _ _ _ (fun i hi => by have := h3 i hi; omega) he _ _ (by simp)]
  rfl

theorem loop_ok (v : Nat) (large : Bool) (proto : Hdr) (l : List Group) (rest : Bytes)
    (hr : ∀ g ∈ l, ∀ r, readRef large proto (layoutGroup v g ++ r) = .ok (ref large g, (layoutGroup v g).length, r))
    (ht : ∀ g ∈ l, g.type ≠ typeFree ∧ g.type ≠ typeSkip) :
    ∀ (acc : List Ref) (fuel k : Nat), k + (l.flatMap (layoutGroup v)).length ≤ proto.size → proto.size < 2 ^ 32 →
    loop large proto (fuel + l.length) acc ⟨l.flatMap (layoutGroup v) ++ rest, k⟩ =
      loop large proto fuel (acc ++ l.map (ref large)) ⟨rest, k + (l.flatMap (layoutGroup v)).length⟩ := by
  induction l with
  | nil => intro acc fuel k _ _; simp
  | cons g l ih =>
    intro acc fuel k hk hs
    have hp := length_group v g
    simp only [List.flatMap_cons, List.length_append, List.map_cons, List.append_assoc, List.length_cons] at hk ⊢
    have e : fuel + (l.length + 1) = (fuel + l.length) + 1 := by omega
    rw [e]
    conv => lhs; unfold loop
    rw [if_pos (by simp only []; omega), hr g (by simp)]
    simp only [Res.bind]
    have := ht g (by simp)
    rw [if_neg (by simp only [ref]; rintro (h | h) <;> simp_all), Nat.mod_eq_of_lt (by omega)]
    rw [ih (fun x hx => hr x (by simp [hx])) (fun x hx => ht x (by simp [hx])) _ _ _ (by omega) hs]
    simp [Nat.add_assoc]

theorem length_le_flatMap (v : Nat) (l : List Group) : l.length ≤ (l.flatMap (layoutGroup v)).length := by
  induction l with
  | nil => simp
  | cons g l ih =>
    have := length_group v g
    simp only [List.flatMap_cons, List.length_append, List.length_cons]
    omega

theorem Fits.ok {v : Nat} {l : List Group} (h : Fits v l) {g : Group} (hg : g ∈ l) : Ok v g :=
  ⟨(h.type g hg).2.1, h.item g hg, h.ids g hg, h.count g hg⟩

theorem Fits.free {v : Nat} {l : List Group} (h : Fits v l) {g : Group} (hg : g ∈ l) : g.type ≠ typeFree ∧ g.type ≠ typeSkip :=
  ⟨(h.type g hg).2.2.1, (h.type g hg).2.2.2⟩

theorem parse_large (l : List Group) (hf : Fits 1 l) (rest : Bytes) :
    ∃ h, parseAtom parse (layout 1 l ++ rest) = .ok ((1, 0, l.map (ref true)), h, rest) := by
  have hsz := hf.size
  rw [length_layout] at hsz
  have hpay : (be 1 1 ++ be 3 0 ++ l.flatMap (layoutGroup 1)).length = 4 + (l.flatMap (layoutGroup 1)).length := by
    simp; omega
  have key : ∀ N, N = 12 + (l.flatMap (layoutGroup 1)).length → ParsesAt (parse ⟨N, fcc 'i' 'r' 'e' 'f', [], 0, 8⟩) 8
      (be 1 1 ++ be 3 0 ++ l.flatMap (layoutGroup 1)) (1, 0, l.map (ref true)) := by
    intro N hN
    unfold parse
    refine ParsesAt.bind ((parses_versionFlags (by omega) (by omega)).at _) ?_
    rw [if_neg (by simp)]
    intro r
    rw [P.bind_apply]
    simp only [P.available]
    rw [P.bind_apply]
    have hl := length_le_flatMap 1 l
    obtain ⟨f, hfu⟩ : ∃ f, (l.flatMap (layoutGroup 1) ++ r).length + 2 = (f + 1) + l.length :=
      ⟨(l.flatMap (layoutGroup 1) ++ r).length + 1 - l.length, by simp only [List.length_append] at *; omega⟩
    rw [hfu]
    have := loop_ok 1 true ⟨N, fcc 'i' 'r' 'e' 'f', [], 0, 8⟩ l r (fun g hg r => readRef_large _ g (hf.ok hg) r) (fun g hg => hf.free hg)
      [] (f + 1) (8 + (be 1 1 ++ be 3 0).length) (by simp only [List.length_append, be_length]; omega) (by simp only []; omega)
    simp only [beq_self_eq_true]
    rw [this]
    unfold loop
    rw [if_neg (by simp only [List.length_append, be_length]; omega)]
    rfl
  have := parseAtom_small (key (8 + (be 1 1 ++ be 3 0 ++ l.flatMap (layoutGroup 1)).length) (by omega)) rfl (by omega)
    (by decide) (by decide) rest
  exact ⟨_, this⟩

theorem find_ref (large : Bool) (l : List Group) (item type : Nat) (v : Nat) :
    getReferences (some (v, l.map (ref large))) item type = .ok (listed l item type) := by
  unfold getReferences listed
  induction l with
  | nil => rfl
  | cons g l ih =>
    simp only [List.map_cons, List.find?_cons]
    have e : isRef item type (ref large g) = (g.item == item && g.type == type) := rfl
    rw [e]
    cases h : (g.item == item && g.type == type) with
    | true => rfl
    | false => exact ih

/-- **C60, reading.** A box of version 1 is read, and the references reported are those of the first list for
the item and the type; it is written again as it was.

Missing for the full claim: version 0, which is the only one the library makes (`c60_not_read`); further lists
for the same item and type (`c60_not_second_list`). -/
theorem c60_read_partial (l : List Group) (hf : Fits 1 l) (rest : Bytes) :
    ∃ refs h, parseAtom parse (layout 1 l ++ rest) = .ok ((1, 0, refs), h, rest) ∧
      (∀ item type, getReferences (some (1, refs)) item type = .ok (listed l item type)) ∧
      write 1 0 refs = .ok (layout 1 l) := by
  obtain ⟨h, e⟩ := parse_large l hf rest
  exact ⟨_, h, e, fun i t => find_ref true l i t 1, write_layout (.inr ⟨rfl, rfl⟩) l hf⟩

/-! ## What does not come back -/

theorem parse_small (l : List Group) (hf : Fits 0 l) (hne : ∃ g ∈ l, g.ids ≠ []) (rest : Bytes) :
    parseAtom parse (layout 0 l ++ rest) = .ub := by
  -- the lists before the first one with references
  obtain ⟨a, g, b, rfl, ha, hg⟩ : ∃ a g b, l = a ++ g :: b ∧ (∀ x ∈ a, x.ids = []) ∧ g.ids ≠ [] := by
    clear hf
    induction l with
    | nil => simp at hne
    | cons x l ih =>
      by_cases hx : x.ids = []
      · obtain ⟨g, h1, h2⟩ := hne
        obtain ⟨a, g, b, h3, h4, h5⟩ := ih ⟨g, by
          rcases List.mem_cons.1 h1 with rfl | h
          · exact absurd hx h2
          · exact h, h2⟩
        refine ⟨x :: a, g, b, by rw [h3]; rfl, ?_, h5⟩
        intro y hy
        rcases List.mem_cons.1 hy with rfl | h
        · exact hx
        · exact h4 y h
      · exact ⟨[], x, l, rfl, by simp, hx⟩
  have hsz := hf.size
  rw [length_layout] at hsz
  have key : ∀ N, N = 12 + ((a ++ g :: b).flatMap (layoutGroup 0)).length →
      parse ⟨N, fcc 'i' 'r' 'e' 'f', [], 0, 8⟩ ⟨be 1 0 ++ be 3 0 ++ ((a ++ g :: b).flatMap (layoutGroup 0) ++ rest), 8⟩ = .ub := by
    intro N hN
    unfold parse
    rw [P.bind_apply, (parses_versionFlags (v := 0) (f := 0) (by omega) (by omega)) _ _]
    simp only []
    rw [if_neg (by simp), P.bind_apply]
    simp only [P.available]
    rw [P.bind_apply]
    have hl := length_le_flatMap 0 (a ++ g :: b)
    simp only [List.length_append, List.length_cons] at hl
    obtain ⟨f, hfu⟩ : ∃ f, ((a ++ g :: b).flatMap (layoutGroup 0) ++ rest).length + 2 = (f + 1) + a.length :=
      ⟨((a ++ g :: b).flatMap (layoutGroup 0) ++ rest).length + 1 - a.length, by simp only [List.length_append] at *; omega⟩
    rw [hfu]
    have hp := length_group 0 g
    simp only [List.flatMap_append, List.flatMap_cons, List.length_append] at hN
    have := loop_ok 0 false ⟨N, fcc 'i' 'r' 'e' 'f', [], 0, 8⟩ a (layoutGroup 0 g ++ (b.flatMap (layoutGroup 0) ++ rest))
      (fun x hx r => readRef_empty _ x (hf.ok (by simp [hx])) (ha x hx) r) (fun x hx => hf.free (by simp [hx]))
      [] (f + 1) (8 + (be 1 0 ++ be 3 0).length) (by simp only [List.length_append, be_length]; omega)
      (by simp only [List.flatMap_append, List.flatMap_cons, List.length_append] at hsz; simp only []; omega)
    simp only [List.flatMap_append, List.flatMap_cons, List.append_assoc] at this ⊢
    have h0 : ((0 : Nat) == 1) = false := rfl
    rw [h0, this]
    unfold loop
    rw [if_pos (by simp only [List.length_append, be_length]; omega), readRef_small _ g (hf.ok (by simp)) hg]
    rfl
  have hlen : 8 + (be 1 0 ++ be 3 0 ++ (a ++ g :: b).flatMap (layoutGroup 0)).length = 12 + ((a ++ g :: b).flatMap (layoutGroup 0)).length := by
    simp only [List.length_append, be_length]; omega
  unfold layout fullBox box
  rw [hlen]
  unfold parseAtom
  rw [List.append_assoc, parseHeader_small (by omega) (by omega) (by decide) (by decide) _ (by simp only [List.length_append, be_length] at *; omega)]
  simp only [List.append_assoc] at key ⊢
  rw [key _ rfl]

/-- No box with a reference that the library writes can be read: the block for the references is half as large as
they are. -/
theorem c60_not_read (calls : List Call) (hp : Proper calls) (hb : Bounded calls) (hne : calls ≠ []) (hf : Fits 0 (groups calls)) :
    ∃ l, run calls none = .ok (some (0, l)) ∧ ∃ bytes, write 0 0 l = .ok bytes ∧ ∀ rest, parseAtom parse (bytes ++ rest) = .ub := by
  obtain ⟨l, h1, h2⟩ := c60_written calls hp hb hne hf
  refine ⟨l, h1, _, h2, parse_small _ hf ?_⟩
  cases calls with
  | nil => exact absurd rfl hne
  | cons c cs =>
    have hm : c.pair ∈ pairs (c :: cs) := by simp [pairs]
    exact ⟨⟨c.pair.2, c.pair.1, references (c :: cs) c.pair⟩, List.mem_map.2 ⟨_, hm, rfl⟩, references_ne hp hm⟩

/-- References added after the first ones as a list are not reported. -/
theorem c60_not_second_list (item type : Nat) (a b : List Nat) :
    getReferences (addReferences (addReferences none item type a) item type b) item type = .ok a := by
  simp [addReferences, ensure, getReferences, isRef]

/-- After an empty list, no reference of the item and type is reported any more. -/
theorem c60_not_after_empty (item type : Nat) (to : List Nat) :
    ∃ s, run (.many item type [] :: to.map (.one item type)) none = .ok s ∧ getReferences s item type = .ok [] := by
  have h : ∀ (to : List Nat) (l : List Ref), ∃ s, run (to.map (.one item type)) (some (0, ⟨type, item, [], false⟩ :: l)) = .ok s ∧
      getReferences s item type = .ok [] := by
    intro to
    induction to with
    | nil => intro l; exact ⟨_, rfl, by simp [getReferences, isRef]⟩
    | cons t to ih =>
      intro l
      obtain ⟨s, h1, h2⟩ := ih (l ++ [⟨type, item, [t], false⟩])
      refine ⟨s, ?_, h2⟩
      simp only [List.map_cons, run, call, addReference, ensure, Option.getD_some, getReferences]
      rw [List.find?_cons_of_pos (by simp [isRef])]
      simp only [Res.bind, List.length_nil, if_true]
      exact h1
  obtain ⟨s, h1, h2⟩ := h to []
  exact ⟨s, h1, h2⟩

/-- The reference after 65535 others is stored before the block. -/
theorem c60_not_many (item type to : Nat) (ids : List Nat) (h : ids.length = 65535) :
    addReference (addReferences none item type ids) item type to = .ub := by
  simp [addReferences, ensure, getReferences, isRef, addReference, Res.bind, h]

/-- Index 0 is not refused. -/
theorem c60_not_index_zero (v : Nat) (l : List Ref) (item type : Nat) : getReference (some (v, l)) item type 0 = .ub := by
  unfold getReference getReferences
  cases h : l.find? (isRef item type) <;> simp [Res.bind, h]

/-- A reference to an item with a larger ID is taken for one to another item. -/
theorem c60_not_large_id : (addReference none 1 7 65538).bind (fun x => getReference x.1 1 7 1) = .ok 2 := by decide

/-! ## A case -/

/-- References of two types, added one by one and as a list, to an item and between others. -/
def sample : List Call := [.one 1 (fcc 't' 'h' 'm' 'b') 2, .many 3 (fcc 'd' 'i' 'm' 'g') [4, 5, 6], .one 1 (fcc 'c' 'd' 's' 'c') 2,
  .one 3 (fcc 'd' 'i' 'm' 'g') 7, .one 1 (fcc 't' 'h' 'm' 'b') 9]

example : Proper sample ∧ Bounded sample ∧ Fits 0 (groups sample) ∧ references sample (3, fcc 'd' 'i' 'm' 'g') = [4, 5, 6, 7] ∧
    references sample (1, fcc 't' 'h' 'm' 'b') = [2, 9] := by
  refine ⟨?_, ?_, ⟨by decide, by decide, by decide, by decide, by decide⟩, by decide, by decide⟩
  · intro a c b e
    match a, e with
    | [], e => simp only [sample, List.nil_append, List.cons.injEq] at e; rw [← e.1]; trivial
    | [_], e =>
      simp only [sample, List.cons_append, List.nil_append, List.cons.injEq] at e
      rw [← e.1, ← e.2.1]; decide
    | [_, _], e => simp only [sample, List.cons_append, List.nil_append, List.cons.injEq] at e; rw [← e.2.2.1]; trivial
    | [_, _, _], e => simp only [sample, List.cons_append, List.nil_append, List.cons.injEq] at e; rw [← e.2.2.2.1]; trivial
    | [_, _, _, _], e => simp only [sample, List.cons_append, List.nil_append, List.cons.injEq] at e; rw [← e.2.2.2.2.1]; trivial
    | _ :: _ :: _ :: _ :: _ :: _, e => simp [sample] at e
  · intro p
    have h : ∀ (l : List Call), (references l p).length ≤ (l.flatMap Call.targets).length := by
      intro l
      induction l with
      | nil => simp [references]
      | cons c l ih =>
        unfold references at *
        simp only [List.filter_cons, List.flatMap_cons, List.length_append]
        split
        · simp only [List.flatMap_cons, List.length_append]; omega
        · omega
    have := h sample
    have e : (sample.flatMap Call.targets).length = 7 := by decide
    omega

/-- A file of version 1 by another writer, with IDs of more than 16 bits. -/
example : Fits 1 [⟨fcc 't' 'h' 'm' 'b', 70000, [2, 80000]⟩, ⟨fcc 'd' 'i' 'm' 'g', 1, []⟩, ⟨fcc 'd' 'i' 'm' 'g', 70000, [3]⟩] :=
  ⟨by decide, by decide, by decide, by decide, by decide⟩

end Verif.Iref
