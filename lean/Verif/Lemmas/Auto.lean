import Verif.Lemmas.Box

/-! # Tactics for straight-line writers and parsers -/

namespace Verif

/-- One write. -/
syntax "emit1" : tactic
macro_rules | `(tactic| emit1) => `(tactic| with_reducible first
  | exact emits_put32 _ | exact emits_put16 _ | exact emits_put8 _ | exact emits_put64 _ | exact emits_put24 _
  | exact emits_bytes _)

/-- A sequence of writes that ends with the assertion. The bytes are given as a right-nested
concatenation. -/
macro "emits" : tactic => `(tactic| repeat (first
  | with_reducible exact emitsFull_assert
  | (with_reducible refine Emits.then (x := _) (y := _) ?_ ?_; focus emit1)
  | (with_reducible refine Emits.thenAssert ?_; focus emit1)))

/-- One read. -/
syntax "parse1" : tactic
macro_rules | `(tactic| parse1) => `(tactic| with_reducible first
  | exact parses_get32 _ | exact parses_get16 _ | exact parses_get8 _ | exact parses_get64 _
  | exact parses_getBytes (by assumption))

/-- A sequence of reads, then a result. -/
macro "parses" : tactic => `(tactic| repeat (first
  | (with_reducible apply Parses.bind; focus parse1)
  | (with_reducible apply Parses.bind_nil; focus parse1)
  | exact parses_pure _))

end Verif
