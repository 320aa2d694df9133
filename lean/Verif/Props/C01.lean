import Verif.Lemmas.LinkedList

/-!
# C01 — the internal list behaves as a plain sequence
-/

namespace Verif.LL

/-- Every sequence of calls (fewer than `2^32` of them, so that `entryCount` cannot overflow) on a
freshly made list gives, call by call, the answers of the same calls on an ordinary sequence. In
particular no call dereferences a null, dangling or freed pointer. -/
theorem c01_list_is_sequence {α : Type u} (ops : List (Op α)) (h : ops.length < 4294967296) :
    run (make : LList α) ops = Spec.run [] ops :=
  rep_run ops make [] rep_make (by simpa using h)

/-- A history that exercises the cursor: walk forward, back, delete before and at the cursor,
delete the last item and append again. -/
example : run (make : LList Nat)
    [.append 10, .append 20, .prepend 5, .get 2, .get 0, .delete 1, .get 1, .delete 1, .delete 0,
      .count, .append 7, .prepend 6, .get 1, .get 2] =
    [.ok .none, .ok .none, .ok .none, .ok (.item 20), .ok (.item 5), .ok .none, .ok (.item 20),
      .ok .none, .ok .none, .ok (.num 0), .ok .none, .ok .none, .ok (.item 7), .err .badParam] := by
  rw [c01_list_is_sequence _ (by decide)]
  rfl

end Verif.LL
