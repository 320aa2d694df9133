import Verif.Lemmas.Stco

/-!
# C15 — relocating media data moves exactly the chunks inside it, and can be undone
-/

namespace Verif.Stco

/-- What should happen to the offset of one chunk when the bytes `[base, stop)` of the file move by
`delta`: it changes if and only if the chunk is in this file and inside the block. -/
def relocated (inFile : Nat → Bool) (base stop : Nat) (delta : Int) (chunk : Nat × Nat) (o : Nat) : Nat :=
  if inFile chunk.2 ∧ base ≤ o ∧ o < stop then ((o : Int) + delta).toNat else o

/-- The tables of a track whose `N` chunk offsets are relocated. `inFile d` tells whether sample
description `d` refers to data in the same file. -/
structure Track (stsd dref : List Nat) (es : List StscEntry) (N : Nat) (inFile : Nat → Bool) : Prop where
  table : StscWF es N
  nonempty : es ≠ []
  size : N < 4294967296
  refs : ∀ e ∈ es, e.desc ≠ 0 ∧ selfContained stsd dref e.desc = .ok (inFile e.desc)

theorem zipWith_replicate {α β γ : Type} (f : α → β → γ) (a : α) (l : List β) :
    List.zipWith f (List.replicate l.length a) l = l.map (f a) := by
  induction l with
  | nil => rfl
  | cons x l ih => simp [List.replicate_succ, ih]

theorem add64_eq {o : Nat} {delta : Int} (h0 : 0 ≤ (o : Int) + delta)
    (h1 : (o : Int) + delta < 18446744073709551616) : add64 o delta = ((o : Int) + delta).toNat := by
  unfold add64
  rw [Int.emod_eq_of_lt h0 h1]

theorem stscLoop_ok (stsd dref : List Nat) (inFile : Nat → Bool) (base stop : Nat) (delta : Int)
    (N : Nat) (hN : N < 4294967296) (E : List Nat)
    (hrange : ∀ o, base ≤ o → o < stop → 0 ≤ (o : Int) + delta ∧ (o : Int) + delta < 18446744073709551616) :
    ∀ (rest : List StscEntry) (p : StscEntry) (D X : List Nat) (saved : Nat) (savedSelf : Bool) (t : Stco),
    (∀ (i : Nat) (a b : StscEntry), (p :: rest)[i]? = some a → (p :: rest)[i + 1]? = some b → a.first < b.first) →
    (∀ e ∈ p :: rest, e.first ≤ N) →
    (∀ e ∈ p :: rest, selfContained stsd dref e.desc = .ok (inFile e.desc)) →
    (saved = p.desc → savedSelf = inFile p.desc) →
    p.first = D.length + 1 → D.length + X.length = N → t.count = N → t.cells = D ++ X ++ E →
    stscLoop stsd dref base stop delta N (p :: rest) saved savedSelf t =
      .ok { t with cells := D ++ List.zipWith (relocated inFile base stop delta) (chunksOf (p :: rest) N) X ++ E } := by
  intro rest
  induction rest with
  | nil =>
    intro p D X saved savedSelf t _ hlast hself hsaved hp hlen hcount hcells
    have hl := hlast p (by simp)
    have hs : (if p.desc ≠ saved then selfContained stsd dref p.desc else .ok savedSelf) = .ok (inFile p.desc) := by
      split
      · exact hself p (by simp)
      · rw [hsaved (by omega)]
    have hch : chunksOf [p] N = List.replicate X.length (p.spc, p.desc) := by
      simp only [chunksOf, chunkRuns, expand_cons, expand_nil, List.append_nil]
      rw [show N + 1 - p.first = X.length by omega]
    have hmap : ∀ x ∈ X, relocated inFile base stop delta (p.spc, p.desc) x =
        if inFile p.desc then moved base stop delta x else x := by
      intro x _
      unfold relocated moved
      by_cases h1 : inFile p.desc = true
      · simp only [h1, true_and, if_true]
        by_cases h2 : base ≤ x ∧ x < stop
        · rw [if_pos h2, if_pos ⟨h2.1, h2.2⟩, add64_eq (hrange x h2.1 h2.2).1 (hrange x h2.1 h2.2).2]
        · rw [if_neg h2, if_neg (fun h => h2 ⟨h.1, h.2⟩)]
      · simp [h1]
    rw [hch, zipWith_replicate, List.map_congr_left hmap]
    simp only [stscLoop, hs]
    by_cases hin : inFile p.desc = true
    · have e1 : (N + 1 + 4294967296 - p.first) % 4294967296 = X.length := by omega
      have e2 : (p.first + X.length + 4294967295) % 4294967296 = D.length + X.length := by omega
      have hX : X ≠ [] := by intro h; subst h; simp at hlen; omega
      rw [if_pos hin, e1, e2, hp, mdatMoved_ok base stop delta (by omega) hX hcells]
      simp [hin]
    · rw [if_neg hin]
      simp [hin, ← hcells]
  | cons q rest ih =>
    intro p D X saved savedSelf t hincr hlast hself hsaved hp hlen hcount hcells
    have hl := hlast q (by simp)
    have hpq := hincr 0 p q (by simp) (by simp)
    have hs : (if p.desc ≠ saved then selfContained stsd dref p.desc else .ok savedSelf) = .ok (inFile p.desc) := by
      split
      · exact hself p (by simp)
      · rw [hsaved (by omega)]
    -- the offsets of this run and the rest
    obtain ⟨Y, Z, rfl, hY⟩ : ∃ Y Z, X = Y ++ Z ∧ Y.length = q.first - p.first :=
      ⟨X.take (q.first - p.first), X.drop (q.first - p.first), by simp, by simp; omega⟩
    simp only [List.length_append] at hlen
    have hch : chunksOf (p :: q :: rest) N = List.replicate Y.length (p.spc, p.desc) ++ chunksOf (q :: rest) N := by
      simp only [chunksOf, chunkRuns, expand_cons, hY]
    have hmap : ∀ x ∈ Y, relocated inFile base stop delta (p.spc, p.desc) x =
        if inFile p.desc then moved base stop delta x else x := by
      intro x _
      unfold relocated moved
      by_cases h1 : inFile p.desc = true
      · simp only [h1, true_and, if_true]
        by_cases h2 : base ≤ x ∧ x < stop
        · rw [if_pos h2, if_pos ⟨h2.1, h2.2⟩, add64_eq (hrange x h2.1 h2.2).1 (hrange x h2.1 h2.2).2]
        · rw [if_neg h2, if_neg (fun h => h2 ⟨h.1, h.2⟩)]
      · simp [h1]
    have hzip : List.zipWith (relocated inFile base stop delta) (chunksOf (p :: q :: rest) N) (Y ++ Z) =
        Y.map (fun x => if inFile p.desc then moved base stop delta x else x) ++
          List.zipWith (relocated inFile base stop delta) (chunksOf (q :: rest) N) Z := by
      rw [hch, List.zipWith_append (by simp), zipWith_replicate, List.map_congr_left hmap]
    rw [hzip]
    -- the loop goes on with the tables of the tail
    have next : ∀ (Y' : List Nat) (t' : Stco), Y'.length = Y.length → t'.count = t.count → t'.alloc = t.alloc →
        t'.cells = D ++ Y' ++ Z ++ E →
        stscLoop stsd dref base stop delta N (q :: rest) p.desc (inFile p.desc) t' =
          .ok { t with cells := D ++ Y' ++ List.zipWith (relocated inFile base stop delta) (chunksOf (q :: rest) N) Z ++ E } := by
      intro Y' t' h1 h2 h3 h4
      rw [ih q (D ++ Y') Z p.desc (inFile p.desc) t'
        (fun i a b ha hb => hincr (i + 1) a b (by simpa using ha) (by simpa using hb))
        (fun e he => hlast e (by simp [List.mem_cons.mp he]))
        (fun e he => hself e (by simp [List.mem_cons.mp he]))
        (fun h => by rw [h]) (by rw [List.length_append]; omega)
        (by rw [List.length_append]; omega) (by rw [h2, hcount]) h4]
      cases t; cases t'; simp only at h2 h3; subst h2 h3; rfl
    simp only [stscLoop, hs]
    by_cases hin : inFile p.desc = true
    · have e1 : (q.first + 4294967296 - p.first) % 4294967296 = Y.length := by omega
      have e2 : (p.first + Y.length + 4294967295) % 4294967296 = D.length + Y.length := by omega
      have hYne : Y ≠ [] := by intro h; subst h; simp at hY; omega
      rw [if_pos hin, e1, e2, hp, mdatMoved_ok (E := Z ++ E) base stop delta (by omega) hYne
        (by rw [hcells]; simp)]
      simp only [hin, if_true]
      have := next (Y.map (moved base stop delta))
        { t with cells := D ++ Y.map (moved base stop delta) ++ (Z ++ E) } (by simp) rfl rfl (by simp)
      rw [hin] at this
      simp only [stscLoop] at this
      rw [this]
      simp
    · rw [if_neg hin]
      have := next Y t rfl rfl rfl (by rw [hcells]; simp)
      simp only [stscLoop] at this
      rw [this]
      simp [hin]

theorem chunksOf_length {N : Nat} : ∀ (rest : List StscEntry) (p : StscEntry),
    (∀ (i : Nat) (a b : StscEntry), (p :: rest)[i]? = some a → (p :: rest)[i + 1]? = some b → a.first < b.first) →
    (∀ e ∈ p :: rest, e.first ≤ N) → (chunksOf (p :: rest) N).length = N + 1 - p.first := by
  intro rest
  induction rest with
  | nil => intro p _ _; simp [chunksOf, chunkRuns]
  | cons q rest ih =>
    intro p h1 h2
    have hpq := h1 0 p q (by simp) (by simp)
    have hq := h2 q (by simp)
    have := ih q (fun i a b ha hb => h1 (i + 1) a b (by simpa using ha) (by simpa using hb))
      (fun e he => h2 e (by simp [List.mem_cons.mp he]))
    simp only [chunksOf, chunkRuns, expand_cons, List.length_append, List.length_replicate] at this ⊢
    omega

/-- Relocation changes every chunk offset as specified; the table keeps its length. -/
theorem c15_moves_exactly (stsd dref : List Nat) (es : List StscEntry) (inFile : Nat → Bool)
    (t : Stco) (L : List Nat) (h : Rep t L) (htrack : Track stsd dref es L.length inFile)
    (base stop : Nat) (delta : Int)
    (hrange : ∀ o, base ≤ o → o < stop → 0 ≤ (o : Int) + delta ∧ (o : Int) + delta < 18446744073709551616) :
    ∃ t', trackMoved stsd dref es t base stop delta = .ok t' ∧
      Rep t' (List.zipWith (relocated inFile base stop delta) (chunksOf es L.length) L) ∧
      (chunksOf es L.length).length = L.length := by
  obtain ⟨hwf, hne, hN, hrefs⟩ := htrack
  cases es with
  | nil => exact absurd rfl hne
  | cons p rest =>
    have hp := hwf.head p (by simp)
    have hclen := chunksOf_length rest p hwf.incr hwf.last
    rw [hp] at hclen
    refine ⟨{ t with cells := List.zipWith (relocated inFile base stop delta) (chunksOf (p :: rest) L.length) L ++
          t.cells.drop L.length }, ?_, ⟨?_, ?_, ?_⟩, by omega⟩
    · unfold trackMoved
      rw [h.count]
      have hcells : t.cells = [] ++ L ++ t.cells.drop L.length := by
        conv => lhs; rw [← List.take_append_drop L.length t.cells, h.cells]
        simp
      rw [stscLoop_ok stsd dref inFile base stop delta L.length hN (t.cells.drop L.length) hrange rest p [] L 0
        false t hwf.incr hwf.last (fun e he => (hrefs e he).2) (fun h0 => absurd h0.symm (hrefs p (by simp)).1)
        (by rw [hp]; rfl) (by simp) h.count hcells]
      simp [h.count]
    · simp only [List.length_zipWith, h.count]; omega
    · simp
    · simp only [List.length_zipWith]
      rw [List.take_append_of_le_length (by simp), List.take_of_length_le (by simp)]

/-- Moving a block and moving it back restores the table, if no chunk offset of this file outside
the block lies in its destination. -/
theorem c15_move_undone (stsd dref : List Nat) (es : List StscEntry) (inFile : Nat → Bool)
    (t : Stco) (L : List Nat) (h : Rep t L) (htrack : Track stsd dref es L.length inFile)
    (base stop base' stop' : Nat) (delta : Int)
    (hb : (base' : Int) = base + delta) (hs : (stop' : Int) = stop + delta)
    (hmax : stop ≤ 18446744073709551616) (hmax' : stop' ≤ 18446744073709551616)
    (hfree : ∀ (i : Nat) (c : Nat × Nat) (o : Nat), (chunksOf es L.length)[i]? = some c → L[i]? = some o →
      inFile c.2 = true → ¬ (base ≤ o ∧ o < stop) → ¬ (base' ≤ o ∧ o < stop')) :
    ∃ t' t'', trackMoved stsd dref es t base stop delta = .ok t' ∧
      trackMoved stsd dref es t' base' stop' (-delta) = .ok t'' ∧ Rep t'' L := by
  obtain ⟨t', h1, h2, h3⟩ := c15_moves_exactly stsd dref es inFile t L h htrack base stop delta
    (fun o ho1 ho2 => by omega)
  have hlen : (List.zipWith (relocated inFile base stop delta) (chunksOf es L.length) L).length = L.length := by
    simp [h3]
  obtain ⟨t'', g1, g2, _⟩ := c15_moves_exactly stsd dref es inFile t' _ h2 (by rw [hlen]; exact htrack)
    base' stop' (-delta) (fun o ho1 ho2 => by omega)
  refine ⟨t', t'', h1, g1, ?_⟩
  have hL : List.zipWith (relocated inFile base' stop' (-delta))
      (chunksOf es (List.zipWith (relocated inFile base stop delta) (chunksOf es L.length) L).length)
      (List.zipWith (relocated inFile base stop delta) (chunksOf es L.length) L) = L := by
    rw [hlen]
    have : ∀ (C : List (Nat × Nat)) (L : List Nat), C.length = L.length →
        (∀ (i : Nat) (c : Nat × Nat) (o : Nat), C[i]? = some c → L[i]? = some o →
          inFile c.2 = true → ¬ (base ≤ o ∧ o < stop) → ¬ (base' ≤ o ∧ o < stop')) →
        List.zipWith (relocated inFile base' stop' (-delta)) C
          (List.zipWith (relocated inFile base stop delta) C L) = L := by
      intro C
      induction C with
      | nil => intro L hl _; simp at hl; simp [List.length_eq_zero_iff.mp hl.symm]
      | cons c C ih =>
        intro L hl hf
        cases L with
        | nil => simp at hl
        | cons o L =>
          simp only [List.zipWith_cons_cons]
          rw [ih L (by simpa using hl) (fun i d x h1 h2 => hf (i + 1) d x h1 h2)]
          congr 1
          have := hf 0 c o rfl rfl
          unfold relocated
          by_cases hi : inFile c.2 = true
          · by_cases hin : base ≤ o ∧ o < stop
            · have e : (if inFile c.2 = true ∧ base ≤ o ∧ o < stop then ((o : Int) + delta).toNat else o) =
                  ((o : Int) + delta).toNat := if_pos ⟨hi, hin⟩
              rw [e, if_pos ⟨hi, by omega, by omega⟩]
              omega
            · have e : (if inFile c.2 = true ∧ base ≤ o ∧ o < stop then ((o : Int) + delta).toNat else o) = o :=
                if_neg (fun h => hin h.2)
              rw [e, if_neg (fun h => this hi hin h.2)]
          · simp [hi]
    exact this _ _ h3 hfree
  rw [hL] at g2
  exact g2

/-- Three chunks, the second one in another file and the third one outside the block: only the
first moves, by -40. -/
example : trackMoved [1, 2] [1, 0] [⟨1, 5, 1⟩, ⟨2, 5, 2⟩, ⟨3, 1, 1⟩] ⟨3, 24, [100, 100, 200]⟩ 48 200 (-40) =
    .ok ⟨3, 24, [60, 100, 200]⟩ := by decide

example : Track [1, 2] [1, 0] [⟨1, 5, 1⟩, ⟨2, 5, 2⟩, ⟨3, 1, 1⟩] 3 (fun d => d == 1) where
  table := ⟨by simp, by
    intro i a b ha hb
    match i with
    | 0 => simp at ha hb; subst ha hb; decide
    | 1 => simp at ha hb; subst ha hb; decide
    | n + 2 => simp at hb, by decide, by decide⟩
  nonempty := by simp
  size := by omega
  refs := by decide

/-- The condition on the destination is needed: chunk 2 is outside the block `[0, 50)` but inside
its destination `[40, 90)`, and is moved by the way back only. -/
theorem c15_destination_must_be_free :
    trackMoved [1] [1] [⟨1, 1, 1⟩] ⟨2, 16, [10, 60]⟩ 0 50 40 = .ok ⟨2, 16, [50, 60]⟩ ∧
    trackMoved [1] [1] [⟨1, 1, 1⟩] ⟨2, 16, [50, 60]⟩ 40 90 (-40) = .ok ⟨2, 16, [10, 20]⟩ := by
  decide

end Verif.Stco
