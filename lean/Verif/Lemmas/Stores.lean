import Verif.Model.Saiz
import Verif.Lemmas.Strings

/-!
# Bytes stored one after the other
-/

namespace Verif.Saiz

theorem parses_stores {room : Bool} {n : Nat} {l : List Nat} (hb : ∀ s ∈ l, s < 2 ^ 8) (hn : l.length = n)
    (hr : room = true ∨ n = 0) : Parses (stores room n) (l.flatMap (be 1)) l := by
  unfold stores
  rw [if_pos hr]
  exact parses_repeat l (be 1) (fun s hs => parses_get8' (hb s hs)) hn

theorem breaks_stores {n k : Nat} {l : List Nat} (hb : ∀ s ∈ l, s < 2 ^ 8) (hn : l.length = n) (hc : n ≠ 0) :
    Str.BreaksAt (stores false n) k (l.flatMap (be 1)) := by
  unfold stores
  rw [if_neg (by simp [hc])]
  rw [← List.take_append_drop (max n 3 - 2) l, List.flatMap_append]
  refine Str.BreaksAt.bind ((parses_repeat (l.take (max n 3 - 2)) (be 1)
    (fun s hs => parses_get8' (hb s (List.mem_of_mem_take hs))) (by rw [List.length_take]; omega)).at _) ?_
  exact fun _ => rfl

theorem bytes_length (l : List Nat) : (l.flatMap (be 1)).length = l.length := by
  rw [flatMap_length_const l (c := 1) fun s _ => be_length 1 s]; omega

theorem emits_sizes (l : List Nat) : Emits (putSizes l.length l) (l.flatMap (be 1)) := by
  induction l with
  | nil => exact emits_skip
  | cons s l ih => exact (emits_put8 _).seq ih

end Verif.Saiz
