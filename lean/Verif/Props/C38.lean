import Verif.Model.UserData

/-!
# C38: user data items
-/

namespace Verif.UserData

/-! ## Specification -/

/-- A call that changes the user data. -/
inductive Op
  | add (type : Nat) (data : Bytes)
  | delete (type index : Nat)

/-- What a call does to the items of one type. -/
def change (t : Nat) (items : List Bytes) : Op → List Bytes
  | .add type data => if type = t ∧ type ≠ 0 then items ++ [data] else items
  | .delete type index => if type = t ∧ type ≠ 0 ∧ index ≠ 0 then items.eraseIdx (index - 1) else items

/-- The items of type `t` added and not deleted, in order of addition. -/
def kept (t : Nat) (ops : List Op) : List Bytes := ops.foldl (change t) []

/-- The types added, each once, in the order of the first addition. -/
def addType (ts : List Nat) : Op → List Nat
  | .add type _ => if type ≠ 0 ∧ type ∉ ts then ts ++ [type] else ts
  | .delete _ _ => ts
def types (ops : List Op) : List Nat := ops.foldl addType []

/-- The user data after the calls, whatever their results are. -/
def after (l : List Record) : Op → List Record
  | .add type data => match add l type data with
    | .ok (l', _) => l'
    | _ => l
  | .delete type index => match delete l type index with
    | .ok l' => l'
    | _ => l
def run (ops : List Op) : List Record := ops.foldl after []

/-! ## One call -/

/-- The items of a type; none if there is no record. -/
def items (l : List Record) (t : Nat) : List Bytes :=
  match find l t with
  | some r => r.items
  | none => []

theorem find_type {l : List Record} {t : Nat} {r : Record} (h : find l t = some r) : r.type = t := by
  simpa using List.find?_some h

theorem find_update {l : List Record} {t u : Nat} {f : Record → Record} (hf : ∀ r, (f r).type = r.type) :
    find (update t f l) u = if u = t then (find l t).map f else find l u := by
  induction l with
  | nil => simp [find, update]
  | cons r l ih =>
    unfold find at ih ⊢
    unfold update
    by_cases h : r.type = t
    · by_cases hu : u = t
      · subst hu; simp [h, hf]
      · simp [h, hf, hu, show t ≠ u from fun e => hu e.symm]
    · rw [if_neg h]
      simp only [List.find?_cons]
      by_cases hu : r.type = u
      · have : u ≠ t := fun e => h (hu.trans e)
        simp [hu, this]
      · have e1 : (r.type == u) = false := by simp [hu]
        have e2 : (r.type == t) = false := by simp [h]
        simp only [e1, e2]
        exact ih

theorem items_update {l : List Record} {t u : Nat} {f : Record → Record} (hf : ∀ r, (f r).type = r.type)
    {r : Record} (hr : find l t = some r) :
    items (update t f l) u = if u = t then (f r).items else items l u := by
  unfold items
  rw [find_update hf]
  by_cases h : u = t
  · simp [h, hr]
  · simp [h]

theorem types_update {l : List Record} {t : Nat} {f : Record → Record} (hf : ∀ r, (f r).type = r.type) :
    (update t f l).map (·.type) = l.map (·.type) := by
  induction l with
  | nil => rfl
  | cons r l ih =>
    unfold update
    split
    · simp [hf]
    · simp [ih]

theorem find_none_iff {l : List Record} {t : Nat} : find l t = none ↔ t ∉ l.map (·.type) := by
  unfold find
  simp only [List.find?_eq_none, List.mem_map, not_exists, not_and, beq_iff_eq]

theorem find_append_new {l : List Record} {t u : Nat} {d : Bytes} (h : find l t = none) :
    items (l ++ [⟨t, [d]⟩]) u = if u = t then items l t ++ [d] else items l u := by
  unfold items
  unfold find at h ⊢
  rw [List.find?_append]
  by_cases e : u = t
  · subst e
    simp [h]
  · have : (t == u) = false := by simp [show t ≠ u from fun c => e c.symm]
    simp [e, this]

theorem step (l : List Record) (op : Op) :
    (∀ t, items (after l op) t = change t (items l t) op) ∧
    (after l op).map (·.type) = addType (l.map (·.type)) op := by
  cases op with
  | add type data =>
    by_cases h0 : type = 0
    · have e : add l type data = .err .badParam := by simp [add, h0]
      subst h0
      simp [after, e, change, addType]
    · cases hr : find l type with
      | none =>
        have e : add l type data = .ok (l ++ [⟨type, [data]⟩], 1) := by simp [add, h0, hr]
        have hn := find_none_iff.mp hr
        refine ⟨fun t => ?_, ?_⟩
        · simp only [after, e, change]
          rw [find_append_new hr]
          by_cases ht : t = type
          · subst ht; simp [h0]
          · simp [ht, show type ≠ t from fun c => ht c.symm]
        · have : type ∉ l.map (·.type) := hn
          simp only [after, e, addType, h0, this, ne_eq, not_false_eq_true, and_self, if_true]
          simp
      | some r =>
        have e : add l type data =
            .ok (update type (fun r => { r with items := r.items ++ [data] }) l, w32(r.items.length + 1)) := by
          simp [add, h0, hr]
        refine ⟨fun t => ?_, ?_⟩
        · simp only [after, e, change]
          rw [items_update (by intro r; rfl) hr]
          by_cases ht : t = type
          · subst ht; simp [h0, items, hr]
          · simp [ht, show type ≠ t from fun c => ht c.symm]
        · have hin : type ∈ l.map (·.type) := by
            refine Classical.byContradiction fun c => ?_
            rw [find_none_iff.mpr c] at hr
            cases hr
          simp only [after, e, addType, hin, not_true_eq_false, and_false, if_false]
          exact types_update (by intro r; rfl)
  | delete type index =>
    by_cases h0 : type = 0 ∨ index = 0
    · have e : delete l type index = .err .badParam := by simp only [delete, if_pos h0]
      have c : ∀ t its, change t its (.delete type index) = its := by
        intro t its
        exact if_neg fun h => h0.elim h.2.1 h.2.2
      simp only [after, e, c, addType, implies_true, and_self]
    · have h1 : type ≠ 0 := fun c => h0 (.inl c)
      have h2 : index ≠ 0 := fun c => h0 (.inr c)
      cases hr : find l type with
      | none =>
        have e : delete l type index = .err .badParam := by simp [delete, h1, h2, hr]
        refine ⟨fun t => ?_, by simp only [after, e, addType]⟩
        simp only [after, e, change]
        split
        · next h => rw [← h.1]; simp [items, hr]
        · rfl
      | some r =>
        by_cases hl : index - 1 ≥ r.items.length
        · have e : delete l type index = .err .badParam := by simp [delete, h1, h2, hr, hl]
          refine ⟨fun t => ?_, by simp only [after, e, addType]⟩
          simp only [after, e, change]
          split
          · next h =>
            rw [← h.1]
            simp only [items, hr]
            rw [List.eraseIdx_of_length_le hl]
          · rfl
        · have e : delete l type index =
              .ok (update type (fun r => { r with items := r.items.eraseIdx (index - 1) }) l) := by
            simp only [delete, if_neg h0, hr, if_neg hl]
          refine ⟨fun t => ?_, ?_⟩
          · simp only [after, e, change]
            rw [items_update (by intro r; rfl) hr]
            by_cases ht : t = type
            · subst ht; simp [h1, h2, items, hr]
            · simp [ht, show type ≠ t from fun c => ht c.symm]
          · simp only [after, e, addType]
            exact types_update (by intro r; rfl)

theorem run_spec (ops : List Op) :
    (∀ t, items (run ops) t = kept t ops) ∧ (run ops).map (·.type) = types ops := by
  suffices h : ∀ (l : List Record),
      (∀ t, items (ops.foldl after l) t = ops.foldl (change t) (items l t)) ∧
      (ops.foldl after l).map (·.type) = ops.foldl addType (l.map (·.type)) from h []
  induction ops with
  | nil => exact fun l => ⟨fun _ => rfl, rfl⟩
  | cons op ops ih =>
    intro l
    obtain ⟨s1, s2⟩ := step l op
    obtain ⟨i1, i2⟩ := ih (after l op)
    refine ⟨fun t => ?_, ?_⟩
    · rw [List.foldl_cons, i1, s1]; rfl
    · rw [List.foldl_cons, i2, s2]; rfl

/-! ## Theorems -/

/-- **C38, items.** After any calls, the items of a type are exactly those added for it and not deleted,
in order: their number is reported, each is returned by its index (from 1), and no other index is
accepted. -/
theorem c38_items (ops : List Op) (t : Nat) (ht : t ≠ 0) :
    entryCount (run ops) t = .ok (kept t ops).length ∧
    (∀ k d, (kept t ops)[k]? = some d → item (run ops) t (k + 1) = .ok d) ∧
    (∀ k, k = 0 ∨ (kept t ops).length < k → item (run ops) t k = .err .badParam) := by
  have h := (run_spec ops).1 t
  unfold items at h
  unfold entryCount item
  rw [if_neg ht]
  cases hr : find (run ops) t with
  | none =>
    rw [hr] at h
    dsimp only at h ⊢
    rw [← h]
    simp
  | some r =>
    rw [hr] at h
    dsimp only at h ⊢
    rw [← h]
    refine ⟨rfl, ?_, ?_⟩
    · intro k d hk
      rw [if_neg (by omega), Nat.add_sub_cancel, hk]
    · intro k hk
      by_cases h0 : k = 0
      · rw [if_pos (.inr h0)]
      · rw [if_neg (by omega), List.getElem?_eq_none (by omega)]

/-- **C38, adding.** Adding an item returns the index at which it is found then; nothing else about this
type, and nothing about another type, is changed. -/
theorem c38_add (ops : List Op) (t : Nat) (d : Bytes) (ht : t ≠ 0) (hl : (kept t ops).length + 1 < 2 ^ 32) :
    ∃ l', add (run ops) t d = .ok (l', (kept t ops).length + 1) ∧ l' = run (ops ++ [.add t d]) ∧
      item l' t ((kept t ops).length + 1) = .ok d ∧
      kept t (ops ++ [.add t d]) = kept t ops ++ [d] ∧ ∀ u, u ≠ t → kept u (ops ++ [.add t d]) = kept u ops := by
  have h := (run_spec ops).1 t
  have k1 : kept t (ops ++ [.add t d]) = kept t ops ++ [d] := by simp [kept, List.foldl_append, change, ht]
  have k2 : ∀ u, u ≠ t → kept u (ops ++ [.add t d]) = kept u ops := by
    intro u hu
    simp [kept, List.foldl_append, change, show t ≠ u from fun c => hu c.symm]
  have ha : ∃ l', add (run ops) t d = .ok (l', (kept t ops).length + 1) := by
    unfold items at h
    unfold add
    rw [if_neg ht]
    cases hr : find (run ops) t with
    | none => rw [hr] at h; dsimp only at h ⊢; rw [← h]; exact ⟨_, rfl⟩
    | some r =>
      rw [hr] at h
      dsimp only at h ⊢
      rw [← h] at hl ⊢
      rw [Nat.mod_eq_of_lt hl]
      exact ⟨_, rfl⟩
  obtain ⟨l', e⟩ := ha
  have hrun : l' = run (ops ++ [.add t d]) := by
    simp only [run, List.foldl_append, List.foldl_cons, List.foldl_nil]
    show l' = after (run ops) (.add t d)
    simp only [after, e]
  refine ⟨l', e, hrun, ?_, k1, k2⟩
  rw [hrun]
  refine (c38_items (ops ++ [.add t d]) t ht).2.1 _ d ?_
  rw [k1, List.getElem?_append_right (Nat.le_refl _), Nat.sub_self]
  rfl

/-- **C38, deleting.** An item is deleted exactly if there is one at the index; the later ones of this
type move down by one, and no other type is changed. -/
theorem c38_delete (ops : List Op) (t k : Nat) (ht : t ≠ 0) :
    (1 ≤ k ∧ k ≤ (kept t ops).length → delete (run ops) t k = .ok (run (ops ++ [.delete t k]))) ∧
    (k = 0 ∨ (kept t ops).length < k → delete (run ops) t k = .err .badParam) ∧
    (1 ≤ k → kept t (ops ++ [.delete t k]) = (kept t ops).eraseIdx (k - 1)) ∧
    ∀ u, u ≠ t → kept u (ops ++ [.delete t k]) = kept u ops := by
  have h := (run_spec ops).1 t
  unfold items at h
  have no : k = 0 ∨ (kept t ops).length < k → delete (run ops) t k = .err .badParam := by
    intro hk
    unfold delete
    by_cases h0 : k = 0
    · rw [if_pos (.inr h0)]
    · rw [if_neg (by omega)]
      cases hr : find (run ops) t with
      | none => rfl
      | some r =>
        rw [hr] at h
        dsimp only at h ⊢
        rw [← h] at hk
        rw [if_pos (by omega)]
  refine ⟨?_, no, ?_, ?_⟩
  · intro hk
    have e : ∃ l', delete (run ops) t k = .ok l' := by
      unfold delete
      rw [if_neg (by omega)]
      cases hr : find (run ops) t with
      | none => rw [hr] at h; dsimp only at h; rw [← h] at hk; simp at hk; omega
      | some r =>
        rw [hr] at h
        dsimp only at h ⊢
        rw [← h] at hk
        rw [if_neg (by omega)]
        exact ⟨_, rfl⟩
    obtain ⟨l', e⟩ := e
    rw [e]
    congr 1
    simp only [run, List.foldl_append, List.foldl_cons, List.foldl_nil]
    show l' = after (run ops) (.delete t k)
    simp only [after, e]
  · intro hk
    simp [kept, List.foldl_append, change, ht, show k ≠ 0 by omega]
  · intro u hu
    simp [kept, List.foldl_append, change, show t ≠ u from fun c => hu c.symm]

theorem types_nodup (ops : List Op) : (types ops).Nodup ∧ 0 ∉ types ops := by
  suffices h : ∀ ts : List Nat, ts.Nodup ∧ 0 ∉ ts → (ops.foldl addType ts).Nodup ∧ 0 ∉ ops.foldl addType ts from
    h [] ⟨List.Pairwise.nil, by simp⟩
  induction ops with
  | nil => exact fun ts h => h
  | cons op ops ih =>
    intro ts h
    refine ih _ ?_
    cases op with
    | delete _ _ => exact h
    | add type d =>
      show (if type ≠ 0 ∧ type ∉ ts then ts ++ [type] else ts).Nodup ∧ 0 ∉ (if type ≠ 0 ∧ type ∉ ts then ts ++ [type] else ts)
      split
      · next hc =>
        refine ⟨?_, ?_⟩
        · rw [List.nodup_append]
          refine ⟨h.1, by simp, ?_⟩
          intro a ha b hb e
          simp only [List.mem_singleton] at hb
          exact hc.2 (hb ▸ e ▸ ha)
        · simp only [List.mem_append, List.mem_singleton, not_or]
          exact ⟨h.2, fun c => hc.1 c.symm⟩
      · exact h

/-- **C38, types.** The types listed are those for which an item was ever added, each once, in the order
of the first additions. -/
theorem c38_types (ops : List Op) :
    typeCount (run ops) = (types ops).length ∧
    (∀ k t, (types ops)[k]? = some t → indType (run ops) (k + 1) = .ok t) ∧
    (∀ k, k = 0 ∨ (types ops).length < k → indType (run ops) k = .err .badParam) ∧ (types ops).Nodup := by
  have h := (run_spec ops).2
  have hl : (run ops).length = (types ops).length := by rw [← h, List.length_map]
  refine ⟨hl, ?_, ?_, (types_nodup ops).1⟩
  · intro k t hk
    have hk' := hk
    rw [← h, List.getElem?_map] at hk
    have hlt : k < (types ops).length := by
      rcases Nat.lt_or_ge k (types ops).length with c | c
      · exact c
      · rw [List.getElem?_eq_none c] at hk'; cases hk'
    unfold indType
    rw [if_neg (by omega), if_neg (by omega), Nat.add_sub_cancel]
    cases hr : (run ops)[k]? with
    | none => rw [hr] at hk; cases hk
    | some r =>
      rw [hr] at hk
      injection hk with hk
      exact congrArg Res.ok hk
  · intro k hk
    unfold indType
    by_cases h0 : k = 0
    · rw [if_pos h0]
    · rw [if_neg h0, if_pos (by omega)]

/-- Every type with items is listed. (A type stays listed when its last item is deleted.) -/
theorem c38_listed (ops : List Op) (t : Nat) (h : kept t ops ≠ []) : t ∈ types ops := by
  rw [← (run_spec ops).2]
  refine Classical.byContradiction fun c => h ?_
  have := (run_spec ops).1 t
  rw [← this, items, find_none_iff.mpr c]

/-! ## Examples -/

/-- Two types, interleaved; an item deleted in the middle. -/
def history : List Op :=
  [.add 7 [1], .add 9 [2, 2], .add 7 [3], .add 7 [], .add 9 [5], .delete 7 2, .delete 7 8, .add 0 [6], .add 7 [7]]

example : kept 7 history = [[1], [], [7]] ∧ kept 9 history = [[2, 2], [5]] ∧ types history = [7, 9] := by decide

example : item (run history) 7 2 = .ok [] ∧ item (run history) 7 3 = .ok [7] ∧ item (run history) 7 4 = .err .badParam := by
  decide

end Verif.UserData
