import Verif.Core.Basic

/-!
# Heap arrays

An array is the list of its cells. An access outside is undefined. Memory that `realloc` or
`malloc` adds holds indeterminate values, taken from an arbitrary function `junk` of the cell
index.
-/

namespace Verif.Mem

variable {α : Type}

/-- `realloc` to `k` cells. -/
def realloc (junk : Nat → α) (cells : List α) (k : Nat) : List α :=
  cells.take k ++ (List.range (k - cells.length)).map fun i => junk (cells.length + i)

/-- `p[i]` -/
def get (cells : List α) (i : Nat) : Res α :=
  match cells[i]? with | some v => .ok v | none => .ub

/-- `p[i] = v` -/
def set (cells : List α) (i : Nat) (v : α) : Res (List α) :=
  if i < cells.length then .ok (cells.set i v) else .ub

/-- Store `vals` from index `start` on (`memcpy`, or a loop of stores). -/
def store (cells : List α) (start : Nat) (vals : List α) : Res (List α) :=
  if start + vals.length ≤ cells.length then
    .ok (cells.take start ++ vals ++ cells.drop (start + vals.length))
  else .ub

theorem realloc_length (junk : Nat → α) (cells : List α) {k : Nat} (h : cells.length ≤ k) :
    (realloc junk cells k).length = k := by
  simp [realloc]; omega

theorem realloc_take (junk : Nat → α) (cells : List α) {k n : Nat} (h : cells.length ≤ k)
    (hn : n ≤ cells.length) : (realloc junk cells k).take n = cells.take n := by
  unfold realloc
  rw [List.take_of_length_le h, List.take_append_of_le_length hn]

theorem get_of_take {cells L : List α} {i : Nat} (h : cells.take L.length = L) (hi : i < L.length) :
    get cells i = .ok L[i] := by
  have : cells[i]? = some L[i] := by
    rw [← List.getElem?_take_of_lt hi, h]; simp [hi]
  unfold get; rw [this]

theorem set_push {cells L : List α} {v : α} (h : cells.take L.length = L) (hl : L.length < cells.length) :
    set cells L.length v = .ok (cells.set L.length v) ∧
      (cells.set L.length v).take (L ++ [v]).length = L ++ [v] := by
  refine ⟨if_pos hl, ?_⟩
  apply List.ext_getElem?
  intro i
  have h' : ∀ i, i < L.length → cells[i]? = L[i]? := by
    intro i hi
    rw [← List.getElem?_take_of_lt hi, h]
  by_cases h1 : i < L.length
  · rw [List.getElem?_take_of_lt (by simp; omega), List.getElem?_set_ne (by omega),
      List.getElem?_append_left h1, h' i h1]
  · by_cases h2 : i = L.length
    · subst h2
      rw [List.getElem?_take_of_lt (by simp), List.getElem?_set_self hl]
      simp
    · rw [List.getElem?_eq_none (by simp; omega), List.getElem?_eq_none (by simp; omega)]

theorem store_push {cells L vals : List α} (h : cells.take L.length = L)
    (hl : L.length + vals.length ≤ cells.length) :
    ∃ cells', store cells L.length vals = .ok cells' ∧ cells'.length = cells.length ∧
      cells'.take (L ++ vals).length = L ++ vals := by
  refine ⟨_, if_pos hl, ?_, ?_⟩
  · simp; omega
  · rw [h, List.take_append_of_le_length (by simp), List.take_of_length_le (by simp)]

/-- The list with the values `vals` put over the elements from index `start` on. -/
def overwrite (L : List α) (start : Nat) (vals : List α) : List α :=
  L.mapIdx fun i old => if start ≤ i then vals.getD (i - start) old else old

theorem overwrite_length (L : List α) (start : Nat) (vals : List α) :
    (overwrite L start vals).length = L.length := by simp [overwrite]

theorem overwrite_eq {L : List α} {start : Nat} {vals : List α} (h : start + vals.length ≤ L.length) :
    overwrite L start vals = L.take start ++ vals ++ L.drop (start + vals.length) := by
  apply List.ext_getElem?
  intro i
  unfold overwrite
  rw [List.getElem?_mapIdx]
  by_cases h1 : i < start
  · rw [List.append_assoc, List.getElem?_append_left (by simp; omega), List.getElem?_take_of_lt h1,
      List.getElem?_eq_getElem (by omega)]
    simp; omega
  · by_cases h2 : i < start + vals.length
    · rw [List.getElem?_append_left (by simp; omega), List.getElem?_append_right (by simp; omega),
        List.getElem?_eq_getElem (l := L) (by omega)]
      have e : i - (L.take start).length = i - start := by simp; omega
      rw [e, List.getElem?_eq_getElem (l := vals) (by omega)]
      simp [show start ≤ i by omega, show i - start < vals.length by omega]
    · rw [List.getElem?_append_right (by simp; omega), List.getElem?_drop]
      have e : start + vals.length + (i - (L.take start ++ vals).length) = i := by simp; omega
      rw [e]
      by_cases h3 : i < L.length
      · rw [List.getElem?_eq_getElem h3]
        simp [show ¬ (i - start < vals.length) by omega]
      · rw [List.getElem?_eq_none (by omega)]; rfl

theorem store_over {cells L vals : List α} {start : Nat} (h : cells.take L.length = L)
    (hl : start + vals.length ≤ L.length) :
    ∃ cells', store cells start vals = .ok cells' ∧ cells'.length = cells.length ∧
      cells'.take L.length = overwrite L start vals := by
  have hc : L.length ≤ cells.length := by
    have := congrArg List.length h
    rw [List.length_take] at this; omega
  refine ⟨_, if_pos (by omega), by simp; omega, ?_⟩
  rw [overwrite_eq hl]
  have e1 : cells.take start = L.take start := by
    rw [← h, List.take_take, Nat.min_eq_left (by omega)]
  have e2 : L.drop (start + vals.length) =
      (cells.drop (start + vals.length)).take (L.length - (start + vals.length)) := by
    rw [← List.drop_take, h]
  rw [List.take_append, List.take_of_length_le (by simp; omega), e1, e2]
  congr 2
  simp
  omega

end Verif.Mem
