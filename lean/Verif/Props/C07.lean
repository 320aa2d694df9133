import Verif.Lemmas.Stts

/-!
# C07 — the time-to-sample table survives being written and parsed
-/

namespace Verif.Stts

/-- The layout of the box in the standard: version and flags, number of entries, then per entry
the sample count and the duration, 32 bits each. -/
def layout (version flags : Nat) (es : List (Nat × Nat)) : Bytes :=
  fullBox (fcc 's' 't' 't' 's') version flags
    (be 4 es.length ++ es.flatMap fun e => be 4 e.1 ++ be 4 e.2)

theorem c07_stts_round_trip (version flags : Nat) (es : List (Nat × Nat))
    (hv : version < 256) (hf : flags < 16777216) (hn : es.length < 536870910)
    (hes : ∀ e ∈ es, e.1 < 4294967296 ∧ e.2 < 4294967296) :
    BoxRoundTrip (calcSize es) (serialize version flags es) parseBody ((version, flags), es)
      (layout version flags es) := by
  have hlen : (es.flatMap fun e => be 4 e.1 ++ be 4 e.2).length = 8 * es.length :=
    flatMap_length_const es (by simp)
  have hsz : calcSize es = 16 + 8 * es.length := by unfold calcSize; omega
  refine BoxRoundTrip.ofFull ?_ ?_ ?_ (by omega) (by decide) (by decide)
  · exact (emits_put32 _).then
      (Emits.each es fun e _ => (emits_put32 e.1).seq (emits_put32 e.2)).thenAssert
  · apply Parses.at
    refine (parses_versionFlags hv hf).bind ((parses_get32' (by omega)).bind (Parses.bind_nil ?_ (parses_pure _)))
    refine parses_repeat es _ (fun e he => ?_) rfl
    exact (parses_get32' (hes e he).1).bind ((parses_get32' (hes e he).2).bind_nil (parses_pure _))
  · simp [hlen]; omega

example : runW (calcSize [(3, 512), (1, 70000)]) (serialize 0 0 [(3, 512), (1, 70000)]) =
    .ok [0, 0, 0, 32, 0x73, 0x74, 0x74, 0x73, 0, 0, 0, 0, 0, 0, 0, 2,
      0, 0, 0, 3, 0, 0, 2, 0, 0, 0, 0, 1, 0, 1, 0x11, 0x70] := by decide

end Verif.Stts
