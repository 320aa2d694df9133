import Verif.Spec.Rle

namespace Verif

theorem sum_replicate (c d : Nat) : (List.replicate c d).sum = c * d := by
  induction c with
  | zero => simp
  | succ c ih => simp [List.replicate_succ, ih, Nat.succ_mul, Nat.add_comm]

theorem expand_length {α : Type u} (es : List (Nat × α)) :
    (expand es).length = (es.map Prod.fst).sum := by
  induction es with
  | nil => rfl
  | cons e es ih => simp [ih]

theorem sum_lt_of_lt {l : List Nat} {b : Nat} (h : ∀ x ∈ l, x ≤ b) : l.sum ≤ l.length * b := by
  induction l with
  | nil => simp
  | cons a l ih =>
    have h1 := h a (by simp)
    have h2 := ih (fun x hx => h x (by simp [hx]))
    simp only [List.sum_cons, List.length_cons, Nat.succ_mul]
    omega

theorem mem_expand {α : Type u} {es : List (Nat × α)} {x : α} (h : x ∈ expand es) :
    ∃ c, (c, x) ∈ es := by
  unfold expand at h
  rw [List.mem_flatMap] at h
  obtain ⟨⟨c, y⟩, he, hx⟩ := h
  have := List.eq_of_mem_replicate hx
  exact ⟨c, by rw [this]; exact he⟩

theorem startOf_append_left (a b : List Nat) (k : Nat) (h : k ≤ a.length) :
    startOf (a ++ b) k = startOf a k := by
  unfold startOf; rw [List.take_append_of_le_length h]

theorem startOf_append_right (a b : List Nat) (k : Nat) :
    startOf (a ++ b) (a.length + k) = a.sum + startOf b k := by
  unfold startOf; rw [List.take_length_add_append, List.sum_append]

theorem startOf_replicate (c d k : Nat) (h : k ≤ c) : startOf (List.replicate c d) k = k * d := by
  unfold startOf
  rw [List.take_replicate, Nat.min_eq_left h, sum_replicate]

theorem startOf_le_sum (l : List Nat) (k : Nat) : startOf l k ≤ l.sum := by
  unfold startOf
  conv => rhs; rw [← List.take_append_drop k l, List.sum_append]
  omega

theorem getLast?_eq_some_iff_append {α : Type u} {l : List α} {a : α} (h : l.getLast? = some a) :
    l = l.dropLast ++ [a] := by
  have hne : l ≠ [] := by intro e; simp [e] at h
  have := List.dropLast_concat_getLast hne
  rw [List.getLast?_eq_some_getLast hne] at h
  injection h with h
  rw [h] at this
  exact this.symm

end Verif
