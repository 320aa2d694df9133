import Verif.Lemmas.Stts

/-!
# C05 — decoding time and duration of a sample do not depend on earlier queries

`expand es` is the list of the durations of all samples of the table; `startOf durs k` is the sum
of the first `k` durations (Spec/Rle).
-/

namespace Verif.Stts

/-- Ask for the samples numbered `qs`, one after the other, ignoring the answers. -/
def askAll (t : Stts) (qs : List Nat) : Stts := qs.foldl (fun t q => (getTime t q).2) t

/-- After any history of queries `qs` (any numbers, in any order, also out of range) the answer for
sample `n` is the sum of the durations before it, and its own duration. -/
theorem c05_query_cache_independent (es : List (Nat × Nat)) (hes : NoOverflow es)
    (qs : List Nat) (n : Nat) (h1 : 1 ≤ n) (h2 : n ≤ (expand es).length) :
    (getTime (askAll (ofEntries es) qs) n).1.1 = startOf (expand es) (n - 1) ∧
    (expand es)[n - 1]? = some (getTime (askAll (ofEntries es) qs) n).1.2 := by
  have inv : ∀ (qs : List Nat) (t : Stts), t.entries = es → CacheOK t →
      (askAll t qs).entries = es ∧ CacheOK (askAll t qs) := by
    intro qs
    induction qs with
    | nil => intro t h1 h2; exact ⟨h1, h2⟩
    | cons q qs ih =>
      intro t h1 h2
      exact ih _ h1 (getTime_spec (h1 ▸ hes) h2 q).1
  obtain ⟨e, c⟩ := inv qs (ofEntries es) rfl (by intro h; exact absurd h (by simp [ofEntries]))
  have := (getTime_spec (t := askAll (ofEntries es) qs) (by rw [e]; exact hes) c n).2 h1 (by rw [e]; exact h2)
  rwa [e] at this

/-- The hypotheses hold for a table of three runs, and the conclusion for a query after a
history that leaves the cache past the requested sample, at it and before it. -/
example : NoOverflow [(3, 10), (2, 7), (4, 1)] ∧
    (getTime (askAll (ofEntries [(3, 10), (2, 7), (4, 1)]) [8, 2, 0, 4, 100, 6]) 5).1 = (37, 7) :=
  ⟨⟨by decide, by decide, by decide⟩, by decide⟩

/-- The condition on a run is needed: in a run lasting `2^32` the code's 32-bit product wraps. -/
theorem c05_long_run_wraps : ∃ es : List (Nat × Nat),
    (expand es).length = 3 ∧ (∀ e ∈ es, e.2 < 4294967296) ∧
    (getTime (ofEntries es) 3).1.1 ≠ startOf (expand es) 2 :=
  ⟨[(3, 2147483648)], by decide, by decide, by decide⟩

/-- The table must not be modified between queries: a query past the end followed by an addition
to the last run leaves a cache that makes the next query fail (`-1` is returned). -/
theorem c05_stale_cache : ∃ (es es' : List (Nat × Nat)), addSamples es 2 [10] = .ok es' ∧
    (getTime { askAll (ofEntries es) [4] with entries := es' } 5).1.1 ≠ startOf (expand es') 4 :=
  ⟨[(3, 10)], [(5, 10)], by decide, by decide⟩

end Verif.Stts
