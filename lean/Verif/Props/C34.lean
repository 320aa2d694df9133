import Verif.Model.Meta

/-!
# C34: identifiers of metadata items

The property fails: an ID that is in use is accepted when it is requested, and after item 65535 the
automatic IDs start again. The theorems give the cases in which it holds.
-/

namespace Verif.Meta

open Iloc (Item)

/-! ## Specification -/

/-- A request for a new item: `none` for an automatic ID; with a base offset and a data reference. -/
structure Req where
  id : Option Nat
  base : Nat := 0
  dref : Nat := 0

def ask (s : S) (r : Req) : S × Res Nat :=
  match r.id with
  | none => addItem s r.base r.dref
  | some id => addItemWithID s r.base r.dref id

/-- The box after some requests, whatever their results are. -/
def run : List Req → S → S
  | [], s => s
  | r :: rs, s => run rs (ask s r).1

def ids (s : S) : List Nat := s.list.map (·.id)

/-- At each request for a particular ID (a `u16`), that ID is not in use, and neither is 65535. -/
def Careful : List Req → S → Prop
  | [], _ => True
  | r :: rs, s => (∀ id, r.id = some id → id < 65536 ∧ id ∉ ids s ∧ 65535 ∉ ids s) ∧ Careful rs (ask s r).1

/-! ## One request -/

/-- A refused request changes nothing; an accepted one adds one item, at the end. -/
theorem add_cases (s : S) (base dref id : Nat) :
    (∃ e, addItemWithID s base dref id = (s, .err e)) ∨
      ∃ next, addItemWithID s base dref id =
          ({ s with next := next, items := some (s.list ++ [newItem base dref id]) }, .ok s.list.length) ∧
        id ≠ 0 ∧ (id ≥ s.next ∧ next = w16(id + 1) ∨ id < s.next ∧ next = s.next) := by
  by_cases h0 : id = 0
  · exact .inl ⟨.badParam, by simp [addItemWithID, requestID, h0]⟩
  · by_cases h1 : id ≥ s.next
    · exact .inr ⟨w16(id + 1), by simp [addItemWithID, requestID, h0, h1, S.list], h0, .inl ⟨h1, rfl⟩⟩
    · cases hi : s.items with
      | none => exact .inl ⟨.notFound, by simp [addItemWithID, requestID, h0, h1, hi]⟩
      | some l =>
        refine .inr ⟨s.next, ?_, h0, .inr ⟨by omega, rfl⟩⟩
        simp [addItemWithID, requestID, h0, h1, hi, S.list]

theorem ask_eq (s : S) (r : Req) : ask s r = addItemWithID s r.base r.dref (r.id.getD s.next) := by
  unfold ask addItem
  cases r.id <;> rfl

theorem ask_ids (s : S) (r : Req) :
    ids (ask s r).1 = ids s ∨ r.id.getD s.next ≠ 0 ∧ ids (ask s r).1 = ids s ++ [r.id.getD s.next] := by
  rw [ask_eq]
  rcases add_cases s r.base r.dref (r.id.getD s.next) with ⟨e, h⟩ | ⟨n, h, h0, -⟩
  · left; rw [h]
  · right; rw [h]; exact ⟨h0, by simp [ids, S.list, newItem]⟩

/-! ## Theorems -/

/-- A refused request leaves the box as it was. An accepted one keeps the items there are and adds an
item with the ID asked for, or the one that `next_item_ID` gives, whose place is returned. -/
theorem c34_refused (s : S) (r : Req) :
    (∀ e, (ask s r).2 = .err e → (ask s r).1 = s) ∧ (ask s r).2 ≠ .ub ∧
    ∀ k, (ask s r).2 = .ok k →
      (ask s r).1.list = s.list ++ [newItem r.base r.dref (r.id.getD s.next)] ∧ k = s.list.length := by
  rw [ask_eq]
  rcases add_cases s r.base r.dref (r.id.getD s.next) with ⟨e, h⟩ | ⟨n, h, -⟩
  · rw [h]; simp
  · rw [h]; simp [S.list, eq_comm]

/-- No item has ID 0. -/
theorem c34_nonzero (m : Mdat.T) (rs : List Req) : 0 ∉ ids (run rs (create m)) := by
  suffices h : ∀ s, 0 ∉ ids s → 0 ∉ ids (run rs s) from h _ (by simp [ids, S.list, create])
  induction rs with
  | nil => exact fun s h => h
  | cons r rs ih =>
    intro s h
    refine ih _ ?_
    rcases ask_ids s r with e | ⟨h0, e⟩
    · rw [e]; exact h
    · rw [e]; simp only [List.mem_append, List.mem_singleton, not_or]; exact ⟨h, fun c => h0 c.symm⟩

/-- While 65535 is not in use, every ID in use is below `next_item_ID`; after that it is 0, so that no
automatic ID is given any more. -/
structure Inv (s : S) : Prop where
  nodup : (ids s).Nodup
  below : ∀ x ∈ ids s, x < 65536
  next : s.next < 65536
  fresh : 65535 ∉ ids s → ∀ x ∈ ids s, x < s.next
  pos : 65535 ∉ ids s → s.next ≠ 0
  last : 65535 ∈ ids s → s.next = 0

theorem Inv.ask {s : S} (h : Inv s) (r : Req)
    (hr : ∀ id, r.id = some id → id < 65536 ∧ id ∉ ids s ∧ 65535 ∉ ids s) : Inv (ask s r).1 := by
  obtain ⟨h1, h2, h3, h4, h5, h6⟩ := h
  have key : r.id.getD s.next < 65536 ∧ (r.id.getD s.next ≠ 0 → r.id.getD s.next ∉ ids s ∧ 65535 ∉ ids s) := by
    cases e : r.id with
    | some id => exact ⟨(hr id e).1, fun _ => (hr id e).2⟩
    | none =>
      refine ⟨h3, fun h0 => ?_⟩
      have h0 : s.next ≠ 0 := h0
      have hn : 65535 ∉ ids s := fun c => h0 (h6 c)
      exact ⟨fun c => Nat.lt_irrefl _ (h4 hn _ c), hn⟩
  rw [ask_eq]
  generalize hid : r.id.getD s.next = id at key
  rcases add_cases s r.base r.dref id with ⟨e, h⟩ | ⟨n, h, h0, hn⟩
  · rw [h]; exact ⟨h1, h2, h3, h4, h5, h6⟩
  · obtain ⟨k1, k2⟩ := key
    obtain ⟨k3, k4⟩ := k2 h0
    have hi : ids ({ s with next := n, items := some (s.list ++ [newItem r.base r.dref id]) } : S) = ids s ++ [id] := by
      simp [ids, S.list, newItem]
    have h4 := h4 k4
    have h5 := h5 k4
    rw [h]
    refine ⟨?_, ?_, ?_, ?_, ?_, ?_⟩
    · rw [hi, List.nodup_append]
      refine ⟨h1, by simp, ?_⟩
      intro a ha b hb e
      simp only [List.mem_singleton] at hb
      exact k3 (hb ▸ e ▸ ha)
    · rw [hi]
      intro x hx
      simp only [List.mem_append, List.mem_singleton] at hx
      rcases hx with hx | rfl
      · exact h2 x hx
      · exact k1
    · show n < 65536
      omega
    · rw [hi]
      intro hm x hx
      show x < n
      simp only [List.mem_append, List.mem_singleton, not_or] at hm hx
      rcases hx with hx | rfl
      · have := h4 x hx; omega
      · omega
    · rw [hi]
      intro hm
      show n ≠ 0
      simp only [List.mem_append, List.mem_singleton, not_or] at hm
      omega
    · rw [hi]
      intro hm
      show n = 0
      simp only [List.mem_append, List.mem_singleton] at hm
      rcases hm with hm | hm
      · exact absurd hm k4
      · omega

theorem inv_run (rs : List Req) : ∀ s, Inv s → Careful rs s → Inv (run rs s) := by
  induction rs with
  | nil => exact fun s h _ => h
  | cons r rs ih => exact fun s h hc => ih _ (h.ask r hc.1) hc.2

theorem inv_create (m : Mdat.T) : Inv (create m) := by
  have e : ids (create m) = [] := rfl
  exact ⟨by simp [e], by simp [e], by simp [create], by simp [e], by simp [create], by simp [e]⟩

/-- When IDs are requested with care, no two items have the same ID. Missing: a request for an ID in use
should be refused, and IDs should stay unique after item 65535. -/
theorem c34_partial (m : Mdat.T) (rs : List Req) (h : Careful rs (create m)) : (ids (run rs (create m))).Nodup :=
  (inv_run rs _ (inv_create m) h).nodup

/-- With automatic IDs alone the property holds, for any number of requests. -/
theorem c34_auto (m : Mdat.T) (rs : List Req) (h : ∀ r ∈ rs, r.id = none) : (ids (run rs (create m))).Nodup := by
  refine c34_partial m rs ?_
  generalize create m = s
  induction rs generalizing s with
  | nil => trivial
  | cons r rs ih =>
    refine ⟨fun id e => ?_, ih (fun r hr => h r (List.mem_cons_of_mem _ hr)) _⟩
    rw [h r List.mem_cons_self] at e
    cases e

theorem place_some {id : Nat} : ∀ {l : List Item} {k j : Nat}, place id k l = some j →
    k ≤ j ∧ ∃ a, l[j - k]? = some a ∧ a.id = id
  | [], _, _, h => by simp [place] at h
  | a :: l, k, j, h => by
    unfold place at h
    split at h
    · next e => injection h with h; subst h; exact ⟨Nat.le_refl _, a, by simp, e⟩
    · obtain ⟨h1, b, h2, h3⟩ := place_some h
      refine ⟨by omega, b, ?_, h3⟩
      have : j - k = (j - (k + 1)) + 1 := by omega
      rw [this, List.getElem?_cons_succ, h2]

theorem place_none {id : Nat} : ∀ {l : List Item} {k : Nat}, place id k l = none → ∀ a ∈ l, a.id ≠ id
  | [], _, _ => by simp
  | a :: l, k, h => by
    unfold place at h
    split at h
    · cases h
    · next e =>
      intro b hb
      rcases List.mem_cons.mp hb with rfl | hb
      · exact e
      · exact place_none h b hb

/-- When IDs are requested with care, looking up the ID of an item gives that item; an ID that no item
has is not found. -/
theorem c34_find (m : Mdat.T) (rs : List Req) (h : Careful rs (create m)) (id : Nat) :
    (∀ k a, (run rs (create m)).list[k]? = some a → a.id = id → findItem (run rs (create m)) id = .ok k) ∧
    (id ∉ ids (run rs (create m)) → findItem (run rs (create m)) id = .err .notFound) := by
  have nd := c34_partial m rs h
  generalize run rs (create m) = s at nd
  cases hi : s.items with
  | none => simp [S.list, hi, findItem]
  | some l =>
    have hl : s.list = l := by simp [S.list, hi]
    simp only [findItem, hi, hl, ids] at nd ⊢
    constructor
    · intro k a ha hid
      cases hp : place id 0 l with
      | none => exact absurd hid (place_none hp a (List.mem_of_getElem? ha))
      | some j =>
        obtain ⟨-, b, h2, h3⟩ := place_some hp
        have e1 : (l.map (·.id))[k]? = some id := by rw [List.getElem?_map, ha]; simp [hid]
        have e2 : (l.map (·.id))[j]? = some id := by
          rw [List.getElem?_map]; simp only [Nat.sub_zero] at h2; rw [h2]; simp [h3]
        have hk : k < (l.map (·.id)).length := by
          rcases Nat.lt_or_ge k (l.map (·.id)).length with h | h
          · exact h
          · rw [List.getElem?_eq_none h] at e1; cases e1
        have := (List.getElem?_inj hk nd).mp (e1.trans e2.symm)
        subst this
        rfl
    · intro hn
      cases hp : place id 0 l with
      | none => rfl
      | some j =>
        obtain ⟨-, b, h2, h3⟩ := place_some hp
        exact absurd (List.mem_map.mpr ⟨b, List.mem_of_getElem? h2, h3⟩) hn

/-! ## What fails -/

/-- A request for an ID in use (not 0) is always accepted, so that two items have it. -/
theorem c34_duplicate (s : S) (base dref id : Nat) (h : id ∈ ids s) (h0 : id ≠ 0) :
    ∃ s' k, addItemWithID s base dref id = (s', .ok k) ∧ ¬ (ids s').Nodup := by
  rcases add_cases s base dref id with ⟨e, he⟩ | ⟨n, he, -⟩
  · exfalso
    have hs : ∃ l, s.items = some l := by
      cases hi : s.items with
      | none => simp [ids, S.list, hi] at h
      | some l => exact ⟨l, rfl⟩
    obtain ⟨l, hl⟩ := hs
    revert he
    by_cases h1 : id ≥ s.next <;> simp [addItemWithID, requestID, h0, h1, hl]
  · refine ⟨_, _, he, ?_⟩
    have : ids ({ s with next := n, items := some (s.list ++ [newItem base dref id]) } : S) = ids s ++ [id] := by
      simp [ids, S.list, newItem]
    rw [this, List.nodup_append]
    rintro ⟨-, -, hd⟩
    exact hd id h id (by simp) rfl

/-- No ID is requested while it is in use, and still two items have ID 5: the request for 65535 makes
`next_item_ID` 0. -/
theorem c34_wraps : ids (run [⟨some 5, 0, 0⟩, ⟨some 65535, 0, 0⟩, ⟨some 4, 0, 0⟩, ⟨none, 0, 0⟩] (create Mdat.create)) =
    [5, 65535, 4, 5] := by decide

/-- `next_item_ID` is 1 in a box that was read from a file, whatever items it has (`createFromInputStream`
of MetaAtom.c does not set it): the first automatic ID is that of item 1. -/
theorem c34_after_reading (m : Mdat.T) (l : List Item) (h : 1 ∈ l.map (·.id)) :
    ¬ (ids (run [⟨none, 0, 0⟩] { create m with items := some l })).Nodup := by
  have : ids (run [⟨none, 0, 0⟩] { create m with items := some l }) = l.map (·.id) ++ [1] := by
    simp [run, ask, addItem, addItemWithID, requestID, create, ids, S.list, newItem]
  rw [this, List.nodup_append]
  rintro ⟨-, -, hd⟩
  exact hd 1 h 1 (by simp) rfl

/-! ## Examples -/

/-- Requests made with care, with one below the highest ID in use. -/
example : Careful [⟨none, 0, 0⟩, ⟨some 9, 7, 0⟩, ⟨some 4, 0, 0⟩, ⟨none, 0, 0⟩] (create Mdat.create) := by
  simp [Careful, ask, addItem, addItemWithID, requestID, create, ids, S.list, newItem]

example : ids (run [⟨none, 0, 0⟩, ⟨some 9, 7, 0⟩, ⟨some 4, 0, 0⟩, ⟨none, 0, 0⟩] (create Mdat.create)) =
    [1, 9, 4, 10] := by decide

/-- A refused request. -/
example : (ask (create Mdat.create) ⟨some 0, 0, 0⟩).2 = .err .badParam := by decide

end Verif.Meta
