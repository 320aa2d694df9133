import Verif.Model.LinkedList
import Verif.Spec.Seq

/-!
# Refinement of the pointer-level list to plain sequences
-/

namespace Verif.LL

/-- Address of the `k`-th item. -/
def ptr {α : Type u} (nodes : List (Nat × α)) (k : Nat) : Option Nat := (nodes[k]?).map Prod.fst

/-- The heap `l` stores the addressed items `nodes` in order. -/
structure Rep {α : Type u} (l : LList α) (nodes : List (Nat × α)) : Prop where
  head : l.head = ptr nodes 0
  cell : ∀ (k i : Nat) (a : α), nodes[k]? = some (i, a) → l.heap i = some ⟨a, ptr nodes (k + 1)⟩
  inj : ∀ (j k i : Nat) (a b : α), nodes[j]? = some (i, a) → nodes[k]? = some (i, b) → j = k
  fresh : ∀ (k i : Nat) (a : α), nodes[k]? = some (i, a) → i < l.next
  tail : nodes ≠ [] → l.tail = ptr nodes (nodes.length - 1)
  found : nodes ≠ [] → l.foundNum < nodes.length ∧ l.found = ptr nodes l.foundNum
  count : l.count = nodes.length

theorem rep_make {α : Type u} : Rep (make : LList α) [] := by
  constructor <;> simp [make, ptr]

theorem rep_walk {α : Type u} {l : LList α} {nodes : List (Nat × α)} (h : Rep l nodes) :
    ∀ k j, j + k < nodes.length → walk l.heap k (ptr nodes j) = .ok (ptr nodes (j + k)) := by
  intro k
  induction k with
  | zero => intro j _; rfl
  | succ k ih =>
    intro j hj
    obtain ⟨⟨i, a⟩, hi⟩ : ∃ p, nodes[j]? = some p := ⟨nodes[j], List.getElem?_eq_getElem (by omega)⟩
    obtain ⟨⟨i', a'⟩, hi'⟩ : ∃ p, nodes[j+1]? = some p :=
      ⟨nodes[j+1], List.getElem?_eq_getElem (by omega)⟩
    have hp : ptr nodes j = some i := by simp [ptr, hi]
    have hp' : ptr nodes (j + 1) = some i' := by simp [ptr, hi']
    rw [hp]
    simp only [walk, deref, h.cell _ _ _ hi, hp']
    have := ih (j + 1) (by omega)
    rw [hp'] at this
    simp only [Option.isNone_some, Bool.false_eq_true, if_false]
    rw [this]
    congr 2; omega

theorem rep_walk2 {α : Type u} {l : LList α} {nodes : List (Nat × α)} (h : Rep l nodes) :
    ∀ k j prev, j + k < nodes.length →
      walk2 l.heap k prev (ptr nodes j) =
        .ok (if k = 0 then prev else ptr nodes (j + k - 1), ptr nodes (j + k)) := by
  intro k
  induction k with
  | zero => intro j _ _; rfl
  | succ k ih =>
    intro j prev hj
    obtain ⟨⟨i, a⟩, hi⟩ : ∃ p, nodes[j]? = some p := ⟨nodes[j], List.getElem?_eq_getElem (by omega)⟩
    obtain ⟨⟨i', a'⟩, hi'⟩ : ∃ p, nodes[j+1]? = some p :=
      ⟨nodes[j+1], List.getElem?_eq_getElem (by omega)⟩
    have hp : ptr nodes j = some i := by simp [ptr, hi]
    have hp' : ptr nodes (j + 1) = some i' := by simp [ptr, hi']
    rw [hp]
    simp only [walk2, deref, h.cell _ _ _ hi, hp']
    have := ih (j + 1) (some i) (by omega)
    rw [hp'] at this
    simp only [Option.isNone_some, Bool.false_eq_true, if_false]
    rw [this]
    have e : j + 1 + k = j + (k + 1) := by omega
    by_cases hk : k = 0
    · subst hk; simp [hp]
    · simp [hk, e]

theorem rep_get {α : Type u} {l : LList α} {nodes : List (Nat × α)} (h : Rep l nodes) (i : Nat) :
    (∃ p l', nodes[i]? = some p ∧ get l i = .ok (p.2, l') ∧ Rep l' nodes) ∨
    (nodes[i]? = none ∧ get l i = .err .badParam) := by
  by_cases hi : i < nodes.length
  · left
    have hne : nodes ≠ [] := by intro e; simp [e] at hi
    obtain ⟨hf1, hf2⟩ := h.found hne
    obtain ⟨⟨e, a⟩, he⟩ : ∃ p, nodes[i]? = some p := ⟨nodes[i], List.getElem?_eq_getElem hi⟩
    have hp : ptr nodes i = some e := by simp [ptr, he]
    refine ⟨(e, a), { l with foundNum := i, found := some e }, he, ?_, ?_⟩
    · unfold get
      rw [if_neg (by rw [h.count]; omega)]
      by_cases hc : i < l.foundNum
      · simp only [hc, if_true]
        have hw := rep_walk h i 0 (by omega)
        rw [← h.head, Nat.zero_add, hp] at hw
        simp only [Nat.sub_zero, hw, deref, h.cell _ _ _ he]
        have : ¬ (i = 0 ∧ some e ≠ l.head) := by
          rintro ⟨rfl, hx⟩; rw [h.head] at hx; exact hx hp.symm
        rw [if_neg this]
      · simp only [hc, if_false]
        have hw := rep_walk h (i - l.foundNum) l.foundNum (by omega)
        rw [← hf2, show l.foundNum + (i - l.foundNum) = i by omega, hp] at hw
        simp only [hw, deref, h.cell _ _ _ he]
        have : ¬ (i = 0 ∧ some e ≠ l.head) := by
          rintro ⟨rfl, hx⟩; rw [h.head] at hx; exact hx hp.symm
        rw [if_neg this]
    · exact { h with found := fun _ => ⟨hi, hp.symm⟩ }
  · right
    refine ⟨by simp at hi ⊢; exact hi, ?_⟩
    unfold get
    rw [if_pos (by rw [h.count]; omega)]

theorem rep_prepend {α : Type u} {l : LList α} {nodes : List (Nat × α)} (h : Rep l nodes) (a : α)
    (hlen : nodes.length + 1 < 4294967296) :
    ∃ l', prepend l a = .ok l' ∧ Rep l' ((l.next, a) :: nodes) := by
  have hfr : ∀ (k i : Nat) (b : α), nodes[k]? = some (i, b) → i ≠ l.next := fun k i b hk =>
    Nat.ne_of_lt (h.fresh k i b hk)
  have hcell : ∀ q, q = ptr nodes 0 → ∀ (k i : Nat) (b : α), ((l.next, a) :: nodes)[k]? = some (i, b) →
      store l.heap l.next (some ⟨a, q⟩) i = some ⟨b, ptr ((l.next, a) :: nodes) (k + 1)⟩ := by
    intro q hq k i b hk
    cases k with
    | zero =>
      simp at hk
      obtain ⟨rfl, rfl⟩ := hk
      simp [store, hq, ptr]
    | succ k =>
      simp at hk
      have := hfr _ _ _ hk
      simp only [store, this, if_false, h.cell _ _ _ hk]
      simp [ptr]
  have hinj : ∀ (j k i : Nat) (x y : α), ((l.next, a) :: nodes)[j]? = some (i, x) →
      ((l.next, a) :: nodes)[k]? = some (i, y) → j = k := by
    intro j k i x y hj hk
    cases j <;> cases k
    · rfl
    · simp at hj hk; exact absurd hj.1.symm (hfr _ _ _ hk)
    · simp at hj hk; exact absurd hk.1.symm (hfr _ _ _ hj)
    · simp at hj hk; rw [h.inj _ _ _ _ _ hj hk]
  have hfresh : ∀ (k i : Nat) (b : α), ((l.next, a) :: nodes)[k]? = some (i, b) → i < l.next + 1 := by
    intro k i b hk
    cases k with
    | zero => simp at hk; omega
    | succ k => simp at hk; have := h.fresh _ _ _ hk; omega
  unfold prepend
  cases hh : l.head with
  | none =>
    have hn : nodes = [] := by
      have := h.head; rw [hh] at this
      cases nodes with
      | nil => rfl
      | cons p ps => simp [ptr] at this
    refine ⟨_, rfl, ?_⟩
    subst hn
    constructor
    · simp [ptr]
    · exact hcell none (by simp [ptr])
    · exact hinj
    · exact hfresh
    · simp [ptr]
    · simp [ptr]
    · simp
  | some q =>
    have hne : nodes ≠ [] := by
      intro e; have := h.head; rw [hh, e] at this; simp [ptr] at this
    have hpos : 0 < nodes.length := List.length_pos_iff.mpr hne
    refine ⟨_, rfl, ?_⟩
    constructor
    · simp [ptr]
    · exact hcell (some q) (by rw [← hh]; exact h.head)
    · exact hinj
    · exact hfresh
    · intro _
      simp only []
      rw [h.tail hne]
      simp only [ptr, List.length_cons, Nat.add_sub_cancel]
      conv => rhs; rw [show nodes.length = nodes.length - 1 + 1 by omega, List.getElem?_cons_succ]
    · simp [ptr]
    · simp only [List.length_cons, h.count]; omega

theorem getElem?_snoc {β : Type u} (xs : List β) (b : β) (k : Nat) (c : β) :
    (xs ++ [b])[k]? = some c ↔ xs[k]? = some c ∨ (k = xs.length ∧ b = c) := by
  by_cases hk : k < xs.length
  · rw [List.getElem?_append_left hk]
    constructor
    · exact Or.inl
    · rintro (h | ⟨h, _⟩)
      · exact h
      · omega
  · rw [List.getElem?_append_right (by omega)]
    have : xs[k]? = none := by simp; omega
    rw [this]
    by_cases hk2 : k = xs.length
    · subst hk2; simp
    · have : ([b] : List β)[k - xs.length]? = none := by
        rw [List.getElem?_eq_none_iff]; simp; omega
      simp [hk2, this]

theorem rep_add {α : Type u} {l : LList α} {nodes : List (Nat × α)} (h : Rep l nodes) (a : α)
    (hlen : nodes.length + 1 < 4294967296) :
    ∃ l', add l a = .ok l' ∧ Rep l' (nodes ++ [(l.next, a)]) := by
  have hfr : ∀ (k i : Nat) (b : α), nodes[k]? = some (i, b) → i ≠ l.next := fun k i b hk =>
    Nat.ne_of_lt (h.fresh k i b hk)
  have hinj : ∀ (j k i : Nat) (x y : α), (nodes ++ [(l.next, a)])[j]? = some (i, x) →
      (nodes ++ [(l.next, a)])[k]? = some (i, y) → j = k := by
    intro j k i x y hj hk
    rw [getElem?_snoc] at hj hk
    rcases hj with hj | ⟨hj, e⟩ <;> rcases hk with hk | ⟨hk, e'⟩
    · exact h.inj _ _ _ _ _ hj hk
    · injection e' with e1 e2; exact absurd e1.symm (hfr _ _ _ hj)
    · injection e with e1 e2; exact absurd e1.symm (hfr _ _ _ hk)
    · omega
  have hfresh : ∀ (k i : Nat) (b : α), (nodes ++ [(l.next, a)])[k]? = some (i, b) → i < l.next + 1 := by
    intro k i b hk
    rw [getElem?_snoc] at hk
    rcases hk with hk | ⟨_, e⟩
    · have := h.fresh _ _ _ hk; omega
    · injection e with e1 e2; omega
  have hlast : ptr (nodes ++ [(l.next, a)]) nodes.length = some l.next := by simp [ptr]
  unfold add
  cases hh : l.head with
  | none =>
    have hn : nodes = [] := by
      have := h.head; rw [hh] at this
      cases nodes with
      | nil => rfl
      | cons p ps => simp [ptr] at this
    refine ⟨_, rfl, ?_⟩
    subst hn
    constructor
    · simp [ptr]
    · intro k i b hk
      simp only [List.nil_append] at hk
      cases k with
      | zero => simp at hk; obtain ⟨rfl, rfl⟩ := hk; simp [store, ptr]
      | succ k => simp at hk
    · exact hinj
    · exact hfresh
    · simp [ptr]
    · simp [ptr]
    · simp
  | some q =>
    have hne : nodes ≠ [] := by
      intro e; have := h.head; rw [hh, e] at this; simp [ptr] at this
    have hpos : 0 < nodes.length := List.length_pos_iff.mpr hne
    obtain ⟨⟨t, b⟩, ht⟩ : ∃ p, nodes[nodes.length - 1]? = some p :=
      ⟨_, List.getElem?_eq_getElem (by omega)⟩
    have htail : l.tail = some t := by rw [h.tail hne]; simp [ptr, ht]
    have htn : t ≠ l.next := hfr _ _ _ ht
    have hct := h.cell _ _ _ ht
    simp only [htail, store, htn, if_false, hct]
    refine ⟨_, rfl, ?_⟩
    constructor
    · simp only []
      rw [← hh, h.head]
      simp only [ptr, List.getElem?_append_left hpos]
    · intro k i c hk
      rw [getElem?_snoc] at hk
      rcases hk with hk | ⟨rfl, e⟩
      · have hin := hfr _ _ _ hk
        have hkl : k < nodes.length := (List.getElem?_eq_some_iff.mp hk).1
        by_cases hit : i = t
        · have hkk : k = nodes.length - 1 := h.inj _ _ _ _ _ (hit ▸ hk) ht
          subst hkk
          have hcb : b = c := by rw [hk] at ht; injection ht with ht; injection ht with _ e; exact e.symm
          subst hit
          simp only [store, if_true, show nodes.length - 1 + 1 = nodes.length by omega, hlast, hcb]
        · have hk1 : k ≠ nodes.length - 1 := by
            intro e; subst e; rw [hk] at ht; injection ht with ht; injection ht with e1 _
            exact hit e1
          simp only [store, hit, hin, if_false, h.cell _ _ _ hk]
          simp only [ptr, List.getElem?_append_left (show k + 1 < nodes.length by omega)]
      · injection e with e1 e2
        subst e1; subst e2
        have : ptr (nodes ++ [(l.next, a)]) (nodes.length + 1) = none := by simp [ptr]
        simp only [store, if_true, htn.symm, if_false, this]
    · exact hinj
    · exact hfresh
    · intro _; simp [hlast]
    · intro _
      simp only [h.count, List.length_append, List.length_cons, List.length_nil]
      have e : ((nodes.length + 1) % 4294967296 + 4294967295) % 4294967296 = nodes.length := by omega
      rw [e, hlast]
      exact ⟨by omega, rfl⟩
    · simp only [List.length_append, List.length_cons, List.length_nil, h.count]; omega

/-- Entry `k` of the sequence with entry `i` removed. -/
theorem getElem?_del {β : Type u} (xs : List β) (i k : Nat) (hi : i < xs.length) :
    (xs.take i ++ xs.drop (i + 1))[k]? = if k < i then xs[k]? else xs[k + 1]? := by
  by_cases hk : k < i
  · rw [List.getElem?_append_left (by simp; omega), if_pos hk, List.getElem?_take_of_lt hk]
  · rw [List.getElem?_append_right (by simp; omega), if_neg hk, List.getElem?_drop]
    congr 1
    simp
    omega

theorem rep_delete {α : Type u} {l : LList α} {nodes : List (Nat × α)} (h : Rep l nodes) (i : Nat)
    (hlen : nodes.length < 4294967296) :
    (i < nodes.length ∧ ∃ l', delete l i = .ok l' ∧ Rep l' (nodes.take i ++ nodes.drop (i + 1))) ∨
    (¬ i < nodes.length ∧ delete l i = .err .badParam) := by
  by_cases hi : i < nodes.length
  · left
    refine ⟨hi, ?_⟩
    have hne : nodes ≠ [] := by intro e; simp [e] at hi
    obtain ⟨⟨e, a⟩, he⟩ : ∃ p, nodes[i]? = some p := ⟨nodes[i], List.getElem?_eq_getElem hi⟩
    have hp : ptr nodes i = some e := by simp [ptr, he]
    have hw := rep_walk2 h i 0 l.head (by omega)
    rw [← h.head, Nat.zero_add, hp] at hw
    have hce := h.cell _ _ _ he
    have hdl : (nodes.take i ++ nodes.drop (i + 1)).length = nodes.length - 1 := by
      simp; omega
    have hdp : ∀ k, ptr (nodes.take i ++ nodes.drop (i + 1)) k =
        if k < i then ptr nodes k else ptr nodes (k + 1) := by
      intro k; simp only [ptr, getElem?_del _ _ _ hi]; split <;> rfl
    -- any other item has another address
    have hother : ∀ (k j : Nat) (b : α), nodes[k]? = some (j, b) → k ≠ i → j ≠ e := by
      intro k j b hk hki hje; subst hje; exact hki (h.inj _ _ _ _ _ hk he)
    have hinj : ∀ (j k x : Nat) (y z : α), (nodes.take i ++ nodes.drop (i + 1))[j]? = some (x, y) →
        (nodes.take i ++ nodes.drop (i + 1))[k]? = some (x, z) → j = k := by
      intro j k x y z hj hk
      rw [getElem?_del _ _ _ hi] at hj hk
      split at hj <;> split at hk
      · exact h.inj _ _ _ _ _ hj hk
      · have := h.inj _ _ _ _ _ hj hk; omega
      · have := h.inj _ _ _ _ _ hj hk; omega
      · have := h.inj _ _ _ _ _ hj hk; omega
    have hfresh : ∀ (k x : Nat) (y : α), (nodes.take i ++ nodes.drop (i + 1))[k]? = some (x, y) → x < l.next := by
      intro k x y hk
      rw [getElem?_del _ _ _ hi] at hk
      split at hk <;> exact h.fresh _ _ _ hk
    unfold delete
    rw [if_neg (by rw [h.count]; omega), hw]
    simp only [hce]
    by_cases h0 : i = 0
    · subst h0
      simp only [if_true]
      refine ⟨_, rfl, ?_⟩
      constructor
      · simp only [hdp]; simp
      · intro k x y hk
        rw [getElem?_del _ _ _ hi] at hk
        simp only [Nat.not_lt_zero, if_false] at hk
        have := hother _ _ _ hk (by omega)
        simp only [store, this, if_false, h.cell _ _ _ hk, hdp, Nat.not_lt_zero]
      · exact hinj
      · exact hfresh
      · intro hne'
        have : 0 < nodes.length - 1 := by
          rw [← hdl]; exact List.length_pos_iff.mpr hne'
        simp only [h.count, hdl, hdp, Nat.not_lt_zero, if_false]
        rw [if_neg (by omega), h.tail hne]
        congr 1; omega
      · intro hne'
        have : 0 < nodes.length - 1 := by
          rw [← hdl]; exact List.length_pos_iff.mpr hne'
        simp only [hdl, hdp]
        exact ⟨this, by simp⟩
      · simp only [hdl, h.count]; omega
    · simp only [h0, if_false]
      obtain ⟨⟨q, b⟩, hq⟩ : ∃ p, nodes[i - 1]? = some p :=
        ⟨_, List.getElem?_eq_getElem (show i - 1 < nodes.length by omega)⟩
      have hpq : ptr nodes (i - 1) = some q := by simp [ptr, hq]
      have hqe : q ≠ e := hother _ _ _ hq (by omega)
      have hcq := h.cell _ _ _ hq
      simp only [hpq, store, hqe, if_false, hcq]
      refine ⟨_, rfl, ?_⟩
      constructor
      · simp only [hdp]; rw [if_pos (by omega)]; exact h.head
      · intro k x y hk
        rw [getElem?_del _ _ _ hi] at hk
        simp only [hdp]
        split at hk
        · next hlt =>
          have hxe := hother _ _ _ hk (by omega)
          by_cases hki : k = i - 1
          · subst hki
            rw [hk] at hq; injection hq with hq; injection hq with e1 e2
            subst e1; subst e2
            simp only [store, if_true]
            rw [if_neg (by omega)]
            congr 3; omega
          · have hxq : x ≠ q := by
              intro hx; subst hx; exact hki (h.inj _ _ _ _ _ hk hq)
            simp only [store, hxq, hxe, if_false, h.cell _ _ _ hk]
            rw [if_pos (by omega)]
        · next hge =>
          have hxe := hother _ _ _ hk (by omega)
          have hxq : x ≠ q := by
            intro hx; subst hx; have := h.inj _ _ _ _ _ hk hq; omega
          simp only [store, hxq, hxe, if_false, h.cell _ _ _ hk]
          rw [if_neg (by omega)]
      · exact hinj
      · exact hfresh
      · intro hne'
        have : 0 < nodes.length - 1 := by
          rw [← hdl]; exact List.length_pos_iff.mpr hne'
        simp only [h.count, hdl, hdp]
        by_cases hlst : i = nodes.length - 1
        · rw [if_pos hlst, if_pos (by omega), ← hpq]
          congr 1; omega
        · rw [if_neg hlst, if_neg (by omega), h.tail hne]
          congr 1; omega
      · intro hne'
        have : 0 < nodes.length - 1 := by
          rw [← hdl]; exact List.length_pos_iff.mpr hne'
        simp only [hdl, hdp]
        exact ⟨this, by rw [if_pos (by omega)]; exact h.head⟩
      · simp only [hdl, h.count]; omega
  · right
    refine ⟨hi, ?_⟩
    unfold delete
    rw [if_pos (by rw [h.count]; omega)]

theorem rep_run {α : Type u} (ops : List (Op α)) :
    ∀ (l : LList α) (nodes : List (Nat × α)), Rep l nodes →
      nodes.length + ops.length < 4294967296 →
      run l ops = Spec.run (nodes.map Prod.snd) ops := by
  induction ops with
  | nil => intros; rfl
  | cons op ops ih =>
    intro l nodes h hlen
    simp only [List.length_cons] at hlen
    cases op with
    | append a =>
      obtain ⟨l', hl, hr⟩ := rep_add h a (by omega)
      have := ih l' _ hr (by simp; omega)
      simp only [run, step, hl, Spec.run, Spec.step, this]
      simp
    | prepend a =>
      obtain ⟨l', hl, hr⟩ := rep_prepend h a (by omega)
      have := ih l' _ hr (by simp; omega)
      simp only [run, step, hl, Spec.run, Spec.step, this]
      simp
    | get i =>
      rcases rep_get h i with ⟨p, l', hp, hl, hr⟩ | ⟨hn, he⟩
      · have := ih l' _ hr (by omega)
        simp only [run, step, hl, Spec.run, Spec.step, List.getElem?_map, hp, Option.map_some, this]
      · have := ih l _ h (by omega)
        simp only [run, step, he, Spec.run, Spec.step, List.getElem?_map, hn, Option.map_none, this]
    | delete i =>
      rcases rep_delete h i (by omega) with ⟨hi, l', hl, hr⟩ | ⟨hn, he⟩
      · have := ih l' _ hr (by simp; omega)
        simp only [run, step, hl, Spec.run, Spec.step, List.length_map, hi, if_true, this]
        simp
      · have := ih l _ h (by omega)
        simp only [run, step, he, Spec.run, Spec.step, List.length_map, hn, if_false, this]
    | count =>
      have := ih l _ h (by omega)
      simp only [run, step, Spec.run, Spec.step, getCount, h.count, List.length_map, this]

end Verif.LL
