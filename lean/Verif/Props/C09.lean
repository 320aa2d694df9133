import Verif.Lemmas.Stsc

/-!
# C09, C10 — every sample is mapped to the right chunk and sample description

`chunksOf es N` lists samples per chunk and description index of the `N` chunks (Spec/Chunks).
-/

namespace Verif.Stsc

/-- Look up the samples `qs` one after the other, ignoring the answers and errors. -/
def askAll (t : Stsc) (qs : List Nat) : Stsc :=
  qs.foldl (fun t q => match lookup t q with | .ok (_, t') => t' | _ => t) t

theorem askAll_inv {es : List StscEntry} {N : Nat} (hwf : StscWF es N) (hN : N < 4294967296)
    (htot : ((chunksOf es N).map Prod.fst).sum + 1 < 4294967296) (qs : List Nat) :
    (askAll (ofEntries es) qs).entries = es ∧ CacheOK (askAll (ofEntries es) qs) N := by
  have inv : ∀ (qs : List Nat) (t : Stsc), t.entries = es → CacheOK t N →
      (askAll t qs).entries = es ∧ CacheOK (askAll t qs) N := by
    intro qs
    induction qs with
    | nil => intro t h1 h2; exact ⟨h1, h2⟩
    | cons q qs ih =>
      intro t h1 h2
      by_cases hq : q = 0
      · have : lookup t q = .err .badParam := by unfold lookup; rw [if_pos hq]
        have e : askAll t (q :: qs) = askAll t qs := by simp [askAll, this]
        rw [e]; exact ih t h1 h2
      · obtain ⟨o, t', g1, g2, g3, _⟩ := lookup_spec (t := t) (by rw [h1]; exact hwf) hN
          (by rw [h1]; exact htot) h2 q hq
        have e : askAll t (q :: qs) = askAll t' qs := by simp [askAll, g1]
        rw [e]; exact ih t' (by rw [g2, h1]) g3
  exact inv qs _ rfl (by intro h; exact absurd rfl h)

/-- After any history of lookups, looking up sample `n` returns the chunk that holds it and the
number of the first sample of that chunk. -/
theorem c09_sample_to_chunk (es : List StscEntry) (N : Nat) (hwf : StscWF es N)
    (hN : N < 4294967296) (htot : ((chunksOf es N).map Prod.fst).sum + 1 < 4294967296)
    (qs : List Nat) (n : Nat) (h1 : 1 ≤ n) (h2 : n ≤ ((chunksOf es N).map Prod.fst).sum) :
    ∃ o t' c, lookup (askAll (ofEntries es) qs) n = .ok (o, t') ∧
      ChunkHolds (chunksOf es N) n c ∧ o.chunk = c + 1 ∧
      o.firstSample = some (samplesBefore (chunksOf es N) c + 1) := by
  obtain ⟨e, hc⟩ := askAll_inv hwf hN htot qs
  obtain ⟨o, t', g1, _, _, g4⟩ := lookup_spec (by rw [e]; exact hwf) hN (by rw [e]; exact htot) hc n
    (by omega)
  rw [e] at g4
  obtain ⟨c, _, _, k1, k2, k3, _⟩ := g4 h2
  exact ⟨o, t', c, g1, k1, k2, k3⟩

/-- C10, partial. The description index returned for sample `n` is the one of the chunk that holds
sample `n - 1` (sample 1 for `n = 1`). This is the right one (that of the chunk holding `n`) unless
`n` is the first sample of a run with another description; then it is wrong, see
`c10_wrong_description`. Missing for the full property: those samples. -/
theorem c10_description_partial (es : List StscEntry) (N : Nat) (hwf : StscWF es N)
    (hN : N < 4294967296) (htot : ((chunksOf es N).map Prod.fst).sum + 1 < 4294967296)
    (qs : List Nat) (n : Nat) (h1 : 1 ≤ n) (h2 : n ≤ ((chunksOf es N).map Prod.fst).sum) :
    ∃ o t' c s, lookup (askAll (ofEntries es) qs) n = .ok (o, t') ∧
      ChunkHolds (chunksOf es N) (max 1 (n - 1)) c ∧ (chunksOf es N)[c]? = some (s, o.desc) := by
  obtain ⟨e, hc⟩ := askAll_inv hwf hN htot qs
  obtain ⟨o, t', g1, _, _, g4⟩ := lookup_spec (by rw [e]; exact hwf) hN (by rw [e]; exact htot) hc n
    (by omega)
  rw [e] at g4
  obtain ⟨_, c', s', _, _, _, k4, k5⟩ := g4 h2
  exact ⟨o, t', c', s', g1, k4, k5⟩

/-- A sample is held by one chunk only. -/
theorem chunkHolds_unique {chunks : List (Nat × Nat)} {n c c' : Nat} (h : ChunkHolds chunks n c)
    (h' : ChunkHolds chunks n c') : c = c' := by
  have step : ∀ (a b s d : Nat), chunks[a]? = some (s, d) → a < b →
      samplesBefore chunks a + s ≤ samplesBefore chunks b := by
    intro a b s d ha hab
    have hm : (chunks.map Prod.fst)[a]? = some s := by simp [ha]
    obtain ⟨hlt, hg⟩ := List.getElem?_eq_some_iff.mp hm
    unfold samplesBefore startOf
    have e1 : (chunks.map Prod.fst).take b =
        (chunks.map Prod.fst).take (a + 1) ++ ((chunks.map Prod.fst).take b).drop (a + 1) := by
      conv => lhs; rw [← List.take_append_drop (a + 1) ((chunks.map Prod.fst).take b)]
      rw [List.take_take, Nat.min_eq_left (by omega)]
    rw [e1, List.take_succ_eq_append_getElem hlt, List.sum_append, List.sum_append, hg]
    simp
  obtain ⟨s, d, a1, a2, a3⟩ := h
  obtain ⟨s', d', b1, b2, b3⟩ := h'
  rcases Nat.lt_trichotomy c c' with hk | hk | hk
  · have := step _ _ _ _ a1 hk; omega
  · exact hk
  · have := step _ _ _ _ b1 hk; omega

/-- The full property for tracks all of whose chunks use the same sample description. -/
theorem c10_single_description (es : List StscEntry) (N D : Nat) (hwf : StscWF es N)
    (hN : N < 4294967296) (htot : ((chunksOf es N).map Prod.fst).sum + 1 < 4294967296)
    (hD : ∀ e ∈ es, e.desc = D)
    (qs : List Nat) (n : Nat) (h1 : 1 ≤ n) (h2 : n ≤ ((chunksOf es N).map Prod.fst).sum) :
    ∃ o t', lookup (askAll (ofEntries es) qs) n = .ok (o, t') ∧ o.desc = D := by
  obtain ⟨o, t', c, s, g1, _, g3⟩ := c10_description_partial es N hwf hN htot qs n h1 h2
  refine ⟨o, t', g1, ?_⟩
  have runs : ∀ (es : List StscEntry), (∀ e ∈ es, e.desc = D) → ∀ r ∈ chunkRuns es N, r.2.2 = D := by
    intro es
    induction es with
    | nil => intro _ r hr; simp [chunkRuns] at hr
    | cons p es ih =>
      intro h r hr
      cases es with
      | nil =>
        simp only [chunkRuns, List.mem_singleton] at hr
        subst hr; exact h p (by simp)
      | cons q es =>
        simp only [chunkRuns, List.mem_cons] at hr
        rcases hr with hr | hr
        · subst hr; exact h p (by simp)
        · exact ih (fun e he => h e (by simp [List.mem_cons.mp he])) r hr
  obtain ⟨k, hk⟩ := mem_expand (List.mem_of_getElem? g3)
  exact runs es hD _ hk

/-- Three runs, 5 chunks, 14 samples; the history moves the cache forth and back. -/
example : StscWF [⟨1, 3, 1⟩, ⟨3, 2, 1⟩, ⟨4, 3, 2⟩] 5 ∧
    chunksOf [⟨1, 3, 1⟩, ⟨3, 2, 1⟩, ⟨4, 3, 2⟩] 5 = [(3, 1), (3, 1), (2, 1), (3, 2), (3, 2)] ∧
    (∃ t', lookup (askAll (ofEntries [⟨1, 3, 1⟩, ⟨3, 2, 1⟩, ⟨4, 3, 2⟩]) [12, 1, 8, 0]) 10 =
      .ok (⟨4, 2, some 9⟩, t')) :=
  ⟨⟨by simp, by
      intro i a b ha hb
      match i with
      | 0 => simp at ha hb; subst ha; subst hb; decide
      | 1 => simp at ha hb; subst ha; subst hb; decide
      | i + 2 => simp at hb, by decide, by decide⟩, by decide, ⟨_, rfl⟩⟩

/-- For the first sample of a run with a new description the previous description is returned:
line 240 of SampleToChunkAtom.c compares with `<=`. -/
theorem c10_wrong_description : ∃ (es : List StscEntry) (N n c s d : Nat) (o : Out) (t' : Stsc),
    es = [⟨1, 2, 1⟩, ⟨2, 3, 2⟩] ∧ N = 2 ∧ ChunkHolds (chunksOf es N) n c ∧
    (chunksOf es N)[c]? = some (s, d) ∧ lookup (ofEntries es) n = .ok (o, t') ∧ o.desc ≠ d :=
  ⟨_, _, 3, 1, 3, 2, ⟨2, 1, some 3⟩, ⟨[⟨1, 2, 1⟩, ⟨2, 3, 2⟩], 0, 1⟩, rfl, rfl, ⟨3, 2, by decide, by decide, by decide⟩,
    by decide, by decide, by decide⟩

/-- A run of zero samples per chunk makes the code divide by zero. -/
theorem c09_zero_divides : lookup (ofEntries [⟨1, 0, 1⟩]) 1 = .ub := by decide

end Verif.Stsc
