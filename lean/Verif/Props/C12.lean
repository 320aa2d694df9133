import Verif.Lemmas.Stsz

/-!
# C12 — sample sizes and in-chunk offsets are those that were added
-/

namespace Verif.Stsz

/-- The call made for a batch of sizes; `junk` is what `realloc` leaves in new memory. -/
def addBatch (t : Stsz) (b : Batch × (Nat → Nat)) : Res Stsz :=
  addSamples b.2 t b.1.count b.1.array

theorem addAll_ok : ∀ (bs : List (Batch × (Nat → Nat))) (t : Stsz) (L : List Nat), Inv t L →
    (∀ b ∈ bs, b.1.values ≠ []) →
    L.length + (bs.flatMap fun b => b.1.values).length + 1 < 1073739776 →
    ∃ t', runAll addBatch t bs = .ok t' ∧ t'.field = t.field ∧
      Inv t' (L ++ bs.flatMap fun b => b.1.values) := by
  intro bs
  induction bs with
  | nil => intro t L h _ _; exact ⟨t, rfl, rfl, by simpa using h⟩
  | cons b bs ih =>
    intro t L h hne hl
    simp only [List.flatMap_cons, List.length_append] at hl
    obtain ⟨t', g1, g2, g3⟩ := addSamples_ok b.2 h b.1 (hne b (by simp)) (by omega)
    obtain ⟨t'', k1, k2, k3⟩ := ih t' _ g3 (fun x hx => hne x (by simp [hx])) (by rw [List.length_append]; omega)
    refine ⟨t'', ?_, by rw [k2, g2], by simpa using k3⟩
    have : addBatch t b = .ok t' := g1
    simp only [runAll, this, Res.bind]; exact k1

theorem inv_create : Inv create [] := ⟨rfl, Or.inl ⟨rfl, rfl, rfl, rfl⟩⟩

/-- For every history of additions of non-empty batches to an empty table, the size of sample `n`
is the one given for it (and numbers out of range are refused), and the offset of sample `n` from
sample `f` is the sum of the sizes of samples `f .. n-1`. Samples are numbered from 1 in the
library, list positions from 0. -/
theorem c12_sizes_and_offsets (bs : List (Batch × (Nat → Nat))) (L : List Nat)
    (hL : L = bs.flatMap fun b => b.1.values) (hne : ∀ b ∈ bs, b.1.values ≠ [])
    (hcount : L.length + 1 < 1073739776) :
    ∃ t, runAll addBatch create bs = .ok t ∧
      (∀ (n s : Nat), L[n]? = some s → getSampleSize t (n + 1) = .ok s) ∧
      (∀ n, n = 0 ∨ L.length < n → getSampleSize t n = .err .badParam) ∧
      (∀ (n f s : Nat), L[n]? = some s → f ≤ n → ((L.drop f).take (n - f)).sum < 4294967296 →
        getSampleSizeAndOffset t (n + 1) (f + 1) = .ok (s, ((L.drop f).take (n - f)).sum)) := by
  subst hL
  obtain ⟨t, h1, _, h3⟩ := addAll_ok bs create [] inv_create hne (by simpa using hcount)
  simp only [List.nil_append] at h3
  refine ⟨t, h1, ?_, ?_, ?_⟩
  · intro n s hs
    obtain ⟨hlt, rfl⟩ := List.getElem?_eq_some_iff.mp hs
    rw [h3.toRep.getSampleSize (n + 1), dif_pos ⟨by omega, hlt⟩]
    rfl
  · intro n hn
    rw [h3.toRep.getSampleSize n, dif_neg (by omega)]
  · intro n f s hs hfn hsum
    obtain ⟨hlt, rfl⟩ := List.getElem?_eq_some_iff.mp hs
    have := h3.toRep.sizeAndOffset (n := n + 1) (f := f + 1) (by omega) (by omega) hlt
    simp only [Nat.add_sub_cancel, Nat.add_sub_add_right] at this
    rw [this, Nat.mod_eq_of_lt hsum]

/-- A history that goes from one common size to a list of sizes: samples of 7, 7, 7, 9, 9 and 0
bytes. -/
example : ∃ t, runAll addBatch create [(.uniform 2 7, fun _ => 99), (.each [7, 9], fun _ => 99),
      (.uniform 1 9, fun _ => 5), (.uniform 1 0, fun _ => 5)] = .ok t ∧
    getSampleSizeAndOffset t 6 2 = .ok (0, 7 + 7 + 9 + 9) := by
  obtain ⟨t, h1, _, _, h4⟩ := c12_sizes_and_offsets [(.uniform 2 7, fun _ => 99), (.each [7, 9], fun _ => 99),
      (.uniform 1 9, fun _ => 5), (.uniform 1 0, fun _ => 5)] _ rfl (by simp [Batch.values]) (by simp [Batch.values])
  exact ⟨t, h1, h4 5 1 0 (by decide) (by omega) (by decide)⟩

/-- The batches must not be empty: after an addition of no samples with size 0, a common size and
then a list, the sizes of the first samples are whatever was in memory. -/
theorem c12_empty_batch_loses_sizes (junk : Nat → Nat) :
    ∃ t, runAll addBatch create [(.uniform 0 0, junk), (.uniform 2 5, junk), (.each [1, 2], junk)] = .ok t ∧
      getSampleSize t 1 = .ok (junk 0) := by
  have h : makeRoom junk ⟨0, 0, 32, 0, none⟩ 0 = .ok (8192, realloc junk [] 2048) := rfl
  have hlen : (realloc junk [] 2048).length = 2048 := by simp [realloc]
  have h0 : (realloc junk [] 2048)[0]? = some (junk 0) := by simp [realloc]
  generalize realloc junk [] 2048 = cells at *
  have h1 : addBatch create (.uniform 0 0, junk) = .ok ⟨0, 0, 32, 8192, some cells⟩ := by
    simp [addBatch, addSamples, Batch.count, Batch.array, h, store, create]
  have h2 : addBatch ⟨0, 0, 32, 8192, some cells⟩ (.uniform 2 5, junk) = .ok ⟨5, 2, 32, 8192, some cells⟩ := by
    simp [addBatch, addSamples, Batch.count, Batch.array]
  have h3 : addBatch ⟨5, 2, 32, 8192, some cells⟩ (.each [1, 2], junk) =
      .ok ⟨0, 4, 32, 8192, some (cells.take 2 ++ [1, 2] ++ cells.drop 4)⟩ := by
    simp [addBatch, addSamples, Batch.count, Batch.array, makeRoom, store, hlen]
  refine ⟨⟨0, 4, 32, 8192, some (cells.take 2 ++ [1, 2] ++ cells.drop 4)⟩,
    by simp only [runAll, h1, h2, h3, Res.bind], ?_⟩
  simp [getSampleSize, cell, hlen]
  simpa [hlen] using h0

end Verif.Stsz
