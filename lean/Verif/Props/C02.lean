import Verif.Lemmas.Handle

/-!
# C02 — handles keep their contents and stay inside their allocation
-/

namespace Verif.Hdl

open Spec

/-- Every history of handle calls starting with no handles follows the specification as long as
its calls are allowed ones: each call either reports an error and changes nothing, or has exactly
the specified effect on the contents, and no call reaches undefined behaviour (a write, read or
address outside the allocated block). -/
theorem c02_handles (ops : List Op) :
    Follows [] ops ((run [] ops).map (fun p => (p.1, p.2.map abs))) :=
  run_follows ops [] (by intro i h hi; simp at hi)

/-- A history of allowed calls whose effects are visible: 3 bytes, then grow by concatenation,
cut a 1-byte prefix, shrink. -/
example : (run [] [.new 3 true, .new 2 true, .cat 0 1 true, .setOffset 0 1 true, .getSize 0,
    .setSize 0 2 true, .getSize 0]).map (fun p => (p.1, p.2.map abs)) =
    [(.ok none, [⟨[], [some 0, some 0, some 0]⟩]),
     (.ok none, [⟨[], [some 0, some 0, some 0]⟩, ⟨[], [some 0, some 0]⟩]),
     (.ok none, [⟨[], [some 0, some 0, some 0, some 0, some 0]⟩, ⟨[], [some 0, some 0]⟩]),
     (.ok none, [⟨[some 0], [some 0, some 0, some 0, some 0]⟩, ⟨[], [some 0, some 0]⟩]),
     (.ok (some 4), [⟨[some 0], [some 0, some 0, some 0, some 0]⟩, ⟨[], [some 0, some 0]⟩]),
     (.ok none, [⟨[some 0], [some 0, some 0]⟩, ⟨[], [some 0, some 0]⟩]),
     (.ok (some 2), [⟨[some 0], [some 0, some 0]⟩, ⟨[], [some 0, some 0]⟩])] := by decide

/-- Distinct operands are needed: concatenating a handle to itself reads the updated size and
copies past the end of the block. -/
theorem c02_self_cat_overruns : step [⟨[some 1, some 2], false, 2, 2, 0⟩] (.cat 0 0 true) = .ub := by
  decide

/-- Sizes below 4 GiB are needed: the 32-bit sum wraps, no reallocation happens and the copy runs
past the block. -/
theorem c02_wrapping_cat_overruns (b : List Cell) (h : b.length = 4294967295) :
    step [⟨b, false, 4294967295, 4294967295, 0⟩, ⟨[some 1, some 2], false, 2, 2, 0⟩]
      (.cat 0 1 true) = .ub := by
  have : blit b 4294967295 [some 1, some 2] = .ub := by
    unfold blit; rw [if_neg (by simp [h])]
  simp [step, cat, readView, this, Res.bind]

/-- A successful allocation is needed: `MP4HandleCat` copies even after `realloc` failed. -/
theorem c02_cat_after_failed_realloc_overruns :
    step [⟨[some 1], false, 1, 1, 0⟩, ⟨[some 2], false, 1, 1, 0⟩] (.cat 0 1 false) = .ub := by
  decide

end Verif.Hdl
