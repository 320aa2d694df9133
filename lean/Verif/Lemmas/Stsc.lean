import Verif.Model.Stsc
import Verif.Lemmas.Rle
import Verif.Lemmas.Box

namespace Verif.Stsc

theorem samplesBefore_append (C D : List (Nat × Nat)) (k : Nat) :
    samplesBefore (C ++ D) (C.length + k) = (C.map Prod.fst).sum + samplesBefore D k := by
  unfold samplesBefore
  rw [List.map_append]
  have := startOf_append_right (C.map Prod.fst) (D.map Prod.fst) k
  simpa using this

theorem samplesBefore_replicate (k s d q : Nat) (E : List (Nat × Nat)) (h : q ≤ k) :
    samplesBefore (List.replicate k (s, d) ++ E) q = q * s := by
  unfold samplesBefore
  rw [List.map_append, List.map_replicate, startOf_append_left _ _ _ (by simpa using h),
    startOf_replicate _ _ _ h]

/-- Locating a sample inside a run of `k` equal chunks. -/
theorem inRun (C E : List (Nat × Nat)) (k s d m : Nat) (hs : 0 < s)
    (h1 : (C.map Prod.fst).sum < m) (h2 : m ≤ (C.map Prod.fst).sum + k * s)
    (q : Nat) (hq : q = (m - (1 + (C.map Prod.fst).sum)) / s) :
    q < k ∧ (C ++ (List.replicate k (s, d) ++ E))[C.length + q]? = some (s, d) ∧
    samplesBefore (C ++ (List.replicate k (s, d) ++ E)) (C.length + q) = (C.map Prod.fst).sum + q * s ∧
    (C.map Prod.fst).sum + q * s < m ∧ m ≤ (C.map Prod.fst).sum + q * s + s := by
  have hqk : (m - (1 + (C.map Prod.fst).sum)) / s < k := by
    rw [Nat.div_lt_iff_lt_mul hs]; omega
  have ha : (m - (1 + (C.map Prod.fst).sum)) / s * s ≤ m - (1 + (C.map Prod.fst).sum) :=
    Nat.div_mul_le_self _ _
  have hb : m - (1 + (C.map Prod.fst).sum) < (m - (1 + (C.map Prod.fst).sum)) / s * s + s :=
    Nat.lt_div_mul_add hs
  rw [← hq] at hqk ha hb
  clear hq
  refine ⟨hqk, ?_, ?_, by omega, by omega⟩
  · rw [List.getElem?_append_right (by omega), List.getElem?_append_left (by simp; omega)]
    simp [hqk]
  · rw [samplesBefore_append, samplesBefore_replicate _ _ _ _ _ (by omega)]

theorem holds_of_inRun {C E : List (Nat × Nat)} {k s d m : Nat} (hs : 0 < s)
    (h1 : (C.map Prod.fst).sum < m) (h2 : m ≤ (C.map Prod.fst).sum + k * s) :
    ChunkHolds (C ++ (List.replicate k (s, d) ++ E)) m
      (C.length + (m - (1 + (C.map Prod.fst).sum)) / s) := by
  obtain ⟨_, g2, g3, g4, g5⟩ := inRun C E k s d m hs h1 h2 _ rfl
  exact ⟨s, d, g2, by rw [g3]; exact g4, by rw [g3]; exact g5⟩

/-- The tail of a table seen from some entry on. -/
structure TailWF (p : StscEntry) (rest : List StscEntry) (N : Nat) : Prop where
  incr : ∀ (i : Nat) (a b : StscEntry), (p :: rest)[i]? = some a → (p :: rest)[i + 1]? = some b →
    a.first < b.first
  last : ∀ e ∈ p :: rest, e.first ≤ N
  spc : ∀ e ∈ p :: rest, 0 < e.spc

theorem TailWF.tail {p q : StscEntry} {rest : List StscEntry} {N : Nat} (h : TailWF p (q :: rest) N) :
    TailWF q rest N :=
  ⟨fun i a b ha hb => h.incr (i + 1) a b (by simpa using ha) (by simpa using hb),
    fun e he => h.last e (by simp [List.mem_cons.mp he]),
    fun e he => h.spc e (by simp [List.mem_cons.mp he])⟩

theorem TailWF.mono {N : Nat} : ∀ {l : List StscEntry} {x : StscEntry}, TailWF x l N →
    ∀ y ∈ x :: l, x.first ≤ y.first := by
  intro l
  induction l with
  | nil => intro x _ y hy; simp at hy; subst hy; omega
  | cons z l ihl =>
    intro x hx y hy
    rcases List.mem_cons.mp hy with h | h
    · subst h; omega
    · have h1 := hx.incr 0 x z (by simp) (by simp)
      have h2 := ihl hx.tail y h
      omega

theorem locate_eq {n f k s N : Nat} {C E : List (Nat × Nat)} {p : StscEntry}
    (hf : f = 1 + (C.map Prod.fst).sum) (hp : p.first = 1 + C.length) (hs : p.spc = s) (hpos : 0 < s)
    (h1 : (C.map Prod.fst).sum < n) (h2 : n ≤ (C.map Prod.fst).sum + k * s)
    (hN : C.length + k ≤ N) (hN32 : N < 4294967296)
    (htot : (C.map Prod.fst).sum + k * s < 4294967296) :
    locate n f p = ⟨C.length + (n - (1 + (C.map Prod.fst).sum)) / s + 1, p.desc,
      some (samplesBefore (C ++ (List.replicate k (s, p.desc) ++ E))
        (C.length + (n - (1 + (C.map Prod.fst).sum)) / s) + 1)⟩ := by
  obtain ⟨g1, g2, g3, g4, g5⟩ := inRun C E k s p.desc n hpos h1 h2 _ rfl
  unfold locate
  simp only [hs]
  have e1 : (n + 4294967296 - f) % 4294967296 = n - (1 + (C.map Prod.fst).sum) := by omega
  rw [e1]
  generalize (n - (1 + (C.map Prod.fst).sum)) / s = q at *
  have e2 : (p.first + q) % 4294967296 = C.length + q + 1 := by omega
  have e3 : (C.length + q + 1 + 4294967296 - p.first) % 4294967296 = q := by omega
  rw [e2, e3, g3]
  have e4 : (q * s % 4294967296 + f) % 4294967296 = (C.map Prod.fst).sum + q * s + 1 := by
    rw [Nat.mod_eq_of_lt (by omega : q * s < 4294967296)]; omega
  rw [e4]

theorem lookLoop_spec (n N : Nat) (hN : N < 4294967296) : ∀ (rest : List StscEntry) (p : StscEntry)
    (C : List (Nat × Nat)) (i f found : Nat),
    TailWF p rest N → f = 1 + (C.map Prod.fst).sum → p.first = 1 + C.length →
    ((C ++ chunksOf (p :: rest) N).map Prod.fst).sum + 1 < 4294967296 →
    (f < n ∨ (f = n ∧ n = 1)) → n ≤ ((C ++ chunksOf (p :: rest) N).map Prod.fst).sum →
    ∃ (o : Out) (a : List StscEntry) (e : StscEntry) (b : List StscEntry) (c c' s' : Nat),
      lookLoop n (p :: rest) i f found =
        .ok (o, i + a.length, 1 + ((C ++ (chunksOf (p :: rest) N).take (e.first - p.first)).map Prod.fst).sum) ∧
      p :: rest = a ++ e :: b ∧
      ChunkHolds (C ++ chunksOf (p :: rest) N) n c ∧ o.chunk = c + 1 ∧
      o.firstSample = some (samplesBefore (C ++ chunksOf (p :: rest) N) c + 1) ∧
      ChunkHolds (C ++ chunksOf (p :: rest) N) (max 1 (n - 1)) c' ∧
      (C ++ chunksOf (p :: rest) N)[c']? = some (s', o.desc) := by
  intro rest
  induction rest with
  | nil =>
    intro p C i f found hwf hf hp htot hn1 hn2
    have hspc := hwf.spc p (by simp)
    have hlast := hwf.last p (by simp)
    have hch : chunksOf [p] N = List.replicate (N + 1 - p.first) (p.spc, p.desc) := by
      simp [chunksOf, chunkRuns]
    have hsum : ((C ++ chunksOf [p] N).map Prod.fst).sum =
        (C.map Prod.fst).sum + (N + 1 - p.first) * p.spc := by
      rw [hch]; simp
    rw [hsum] at htot hn2
    have hl := locate_eq (E := []) hf hp rfl hspc (by omega) hn2 (by omega) hN (by omega)
    have hH := holds_of_inRun (E := []) (d := p.desc) hspc (show (C.map Prod.fst).sum < n by omega) hn2
    have hH' := holds_of_inRun (E := []) (d := p.desc) hspc
      (show (C.map Prod.fst).sum < max 1 (n - 1) by omega)
      (show max 1 (n - 1) ≤ _ + (N + 1 - p.first) * p.spc by omega)
    have hI' := (inRun C [] (N + 1 - p.first) p.spc p.desc _ hspc
      (show (C.map Prod.fst).sum < max 1 (n - 1) by omega)
      (show max 1 (n - 1) ≤ _ by omega) _ rfl).2.1
    refine ⟨locate n f p, [], p, [], (C.length + (n - (1 + (C.map Prod.fst).sum)) / p.spc),
      (C.length + (max 1 (n - 1) - (1 + (C.map Prod.fst).sum)) / p.spc), p.spc, ?_, rfl, ?_, ?_, ?_, ?_, ?_⟩
    · unfold lookLoop
      rw [if_neg (by omega)]
      simp [hf]
    · rw [hch]; simpa using hH
    · rw [hl]
    · rw [hl, hch]; simp
    · rw [hch]; simpa using hH'
    · rw [hch, hl]; simpa using hI'
  | cons q rest ih =>
    intro p C i f found hwf hf hp htot hn1 hn2
    have hspc := hwf.spc p (by simp)
    have hpq := hwf.incr 0 p q (by simp) (by simp)
    have hqN := hwf.last q (by simp)
    have hch : chunksOf (p :: q :: rest) N =
        List.replicate (q.first - p.first) (p.spc, p.desc) ++ chunksOf (q :: rest) N := by
      simp [chunksOf, chunkRuns]
    have hsum : ((C ++ chunksOf (p :: q :: rest) N).map Prod.fst).sum =
        (C.map Prod.fst).sum + (q.first - p.first) * p.spc +
          ((chunksOf (q :: rest) N).map Prod.fst).sum := by
      rw [hch]; simp [Nat.add_assoc]
    rw [hsum] at htot hn2
    have e1 : (q.first + 4294967296 - p.first) % 4294967296 = q.first - p.first := by omega
    have e2 : (q.first - p.first) * p.spc % 4294967296 = (q.first - p.first) * p.spc :=
      Nat.mod_eq_of_lt (by omega)
    have e3 : (f + (q.first - p.first) * p.spc) % 4294967296 = f + (q.first - p.first) * p.spc :=
      Nat.mod_eq_of_lt (by omega)
    have hkpos : 1 ≤ (q.first - p.first) * p.spc := Nat.mul_pos (by omega) hspc
    unfold lookLoop
    simp only [e1, e2, e3]
    by_cases hle : n ≤ f + (q.first - p.first) * p.spc
    · rw [if_pos hle, if_neg (by omega)]
      have hH' := holds_of_inRun (E := chunksOf (q :: rest) N) (d := p.desc) hspc
        (show (C.map Prod.fst).sum < max 1 (n - 1) by omega)
        (show max 1 (n - 1) ≤ _ + (q.first - p.first) * p.spc by omega)
      have hI' := (inRun C (chunksOf (q :: rest) N) (q.first - p.first) p.spc p.desc _ hspc
        (show (C.map Prod.fst).sum < max 1 (n - 1) by omega)
        (show max 1 (n - 1) ≤ _ by omega) _ rfl).2.1
      have hdesc : (locate n f p).desc = p.desc := rfl
      by_cases hlt : n ≤ (C.map Prod.fst).sum + (q.first - p.first) * p.spc
      · have hl := locate_eq (E := chunksOf (q :: rest) N) hf hp rfl hspc (by omega) hlt
          (show C.length + (q.first - p.first) ≤ N by omega) hN (by omega)
        have hH := holds_of_inRun (E := chunksOf (q :: rest) N) (d := p.desc) hspc
          (show (C.map Prod.fst).sum < n by omega) hlt
        refine ⟨locate n f p, [], p, q :: rest, (C.length + (n - (1 + (C.map Prod.fst).sum)) / p.spc),
          (C.length + (max 1 (n - 1) - (1 + (C.map Prod.fst).sum)) / p.spc), p.spc, ?_, rfl, ?_, ?_, ?_, ?_, ?_⟩
        · simp [hf]
        · rw [hch]; exact hH
        · rw [hl]
        · rw [hl, hch]
        · rw [hch]; exact hH'
        · rw [hch, hdesc]; exact hI'
      · -- the first sample of the next run
        have hn : n = f + (q.first - p.first) * p.spc := by omega
        have hqs := hwf.spc q (by simp)
        obtain ⟨k', E', hk', hE'⟩ : ∃ k' E', 0 < k' ∧
            chunksOf (q :: rest) N = List.replicate k' (q.spc, q.desc) ++ E' := by
          cases rest with
          | nil => exact ⟨N + 1 - q.first, [], by omega, by simp [chunksOf, chunkRuns]⟩
          | cons r rest =>
            have := hwf.incr 1 q r (by simp) (by simp)
            exact ⟨r.first - q.first, chunksOf (r :: rest) N, by omega, by simp [chunksOf, chunkRuns]⟩
        have hCs : ((C ++ List.replicate (q.first - p.first) (p.spc, p.desc)).map Prod.fst).sum =
            (C.map Prod.fst).sum + (q.first - p.first) * p.spc := by simp
        have hone : q.spc ≤ k' * q.spc := Nat.le_mul_of_pos_left _ hk'
        have hI := inRun (C ++ List.replicate (q.first - p.first) (p.spc, p.desc)) E' k' q.spc q.desc n hqs
          (by rw [hCs]; omega) (by rw [hCs]; omega) _ rfl
        have hz : n - (1 + ((C ++ List.replicate (q.first - p.first) (p.spc, p.desc)).map Prod.fst).sum) = 0 := by
          rw [hCs]; omega
        simp only [hz, Nat.zero_div, Nat.zero_mul, Nat.add_zero] at hI
        obtain ⟨_, g2, g3, g4, g5⟩ := hI
        have hall : C ++ chunksOf (p :: q :: rest) N =
            C ++ List.replicate (q.first - p.first) (p.spc, p.desc) ++
              (List.replicate k' (q.spc, q.desc) ++ E') := by
          rw [hch, hE']; simp
        have hlen : (C ++ List.replicate (q.first - p.first) (p.spc, p.desc)).length =
            C.length + (q.first - p.first) := by simp
        have hloc : locate n f p = ⟨C.length + (q.first - p.first) + 1, p.desc, some n⟩ := by
          unfold locate
          simp only []
          have d1 : (n + 4294967296 - f) % 4294967296 = (q.first - p.first) * p.spc := by omega
          rw [d1, Nat.mul_div_cancel _ hspc]
          have d2 : (p.first + (q.first - p.first)) % 4294967296 = C.length + (q.first - p.first) + 1 := by
            omega
          have d3 : (C.length + (q.first - p.first) + 1 + 4294967296 - p.first) % 4294967296 =
            q.first - p.first := by omega
          rw [d2, d3, e2]
          have d4 : ((q.first - p.first) * p.spc + f) % 4294967296 = n := by omega
          rw [d4]
        refine ⟨locate n f p, [], p, q :: rest, C.length + (q.first - p.first),
          (C.length + (max 1 (n - 1) - (1 + (C.map Prod.fst).sum)) / p.spc), p.spc, ?_, rfl, ?_, ?_, ?_, ?_, ?_⟩
        · simp [hf]
        · rw [hall]
          rw [hlen] at g2 g3
          exact ⟨q.spc, q.desc, g2, by rw [g3]; exact g4, by rw [g3]; exact g5⟩
        · rw [hloc]
        · rw [hloc, hall]
          rw [hlen] at g3
          rw [g3, hCs]
          simp only []
          congr 1
          omega
        · rw [hch]; exact hH'
        · rw [hch, hdesc]; exact hI'
    · rw [if_neg hle]
      have hCs : ((C ++ List.replicate (q.first - p.first) (p.spc, p.desc)).map Prod.fst).sum =
          (C.map Prod.fst).sum + (q.first - p.first) * p.spc := by simp
      have hall : C ++ chunksOf (p :: q :: rest) N =
          C ++ List.replicate (q.first - p.first) (p.spc, p.desc) ++ chunksOf (q :: rest) N := by
        rw [hch]; simp
      have hih := ih q (C ++ List.replicate (q.first - p.first) (p.spc, p.desc)) (i + 1)
        (f + (q.first - p.first) * p.spc) found hwf.tail (by rw [hCs]; omega)
        (by simp; omega) (by rw [← hall, hsum]; exact htot) (by omega) (by rw [← hall, hsum]; exact hn2)
      obtain ⟨o, a, e, b, c, c', s', k1, k2, k3, k4, k5, k6, k7⟩ := hih
      rw [← hall] at k3 k5 k6 k7
      refine ⟨o, p :: a, e, b, c, c', s', ?_, by simp [k2], k3, k4, k5, k6, k7⟩
      rw [k1]
      -- `e.first - p.first` counts the chunks of the first run too
      have heq : q.first ≤ e.first := hwf.tail.mono e (by rw [k2]; simp)
      have hsub : e.first - p.first = (q.first - p.first) + (e.first - q.first) := by omega
      have htake : (chunksOf (p :: q :: rest) N).take (e.first - p.first) =
          List.replicate (q.first - p.first) (p.spc, p.desc) ++
            (chunksOf (q :: rest) N).take (e.first - q.first) := by
        have := List.take_length_add_append
          (l₁ := List.replicate (q.first - p.first) (p.spc, p.desc))
          (l₂ := chunksOf (q :: rest) N) (e.first - q.first)
        rw [hch, hsub]
        simpa using this
      rw [htake]
      simp only [List.append_assoc, List.length_cons]
      congr 3
      omega

/-- Position of the cache after any lookup. -/
theorem lookLoop_cache (n N : Nat) : ∀ (rest : List StscEntry) (p : StscEntry)
    (C : List (Nat × Nat)) (i f found : Nat),
    TailWF p rest N → f = 1 + (C.map Prod.fst).sum → p.first = 1 + C.length → N < 4294967296 →
    ((C ++ chunksOf (p :: rest) N).map Prod.fst).sum + 1 < 4294967296 →
    ∃ (o : Out) (a : List StscEntry) (e : StscEntry) (b : List StscEntry),
      lookLoop n (p :: rest) i f found =
        .ok (o, i + a.length, 1 + ((C ++ (chunksOf (p :: rest) N).take (e.first - p.first)).map Prod.fst).sum) ∧
      p :: rest = a ++ e :: b := by
  intro rest
  induction rest with
  | nil =>
    intro p C i f found hwf hf hp hN htot
    have hspc := hwf.spc p (by simp)
    refine ⟨locate n f p, [], p, [], ?_, rfl⟩
    unfold lookLoop
    rw [if_neg (by omega)]
    simp [hf]
  | cons q rest ih =>
    intro p C i f found hwf hf hp hN htot
    have hspc := hwf.spc p (by simp)
    have hpq := hwf.incr 0 p q (by simp) (by simp)
    have hqN := hwf.last q (by simp)
    have hch : chunksOf (p :: q :: rest) N =
        List.replicate (q.first - p.first) (p.spc, p.desc) ++ chunksOf (q :: rest) N := by
      simp [chunksOf, chunkRuns]
    have hsum : ((C ++ chunksOf (p :: q :: rest) N).map Prod.fst).sum =
        (C.map Prod.fst).sum + (q.first - p.first) * p.spc +
          ((chunksOf (q :: rest) N).map Prod.fst).sum := by
      rw [hch]; simp [Nat.add_assoc]
    rw [hsum] at htot
    have e1 : (q.first + 4294967296 - p.first) % 4294967296 = q.first - p.first := by omega
    have e2 : (q.first - p.first) * p.spc % 4294967296 = (q.first - p.first) * p.spc :=
      Nat.mod_eq_of_lt (by omega)
    have e3 : (f + (q.first - p.first) * p.spc) % 4294967296 = f + (q.first - p.first) * p.spc :=
      Nat.mod_eq_of_lt (by omega)
    unfold lookLoop
    simp only [e1, e2, e3]
    by_cases hle : n ≤ f + (q.first - p.first) * p.spc
    · rw [if_pos hle, if_neg (by omega)]
      exact ⟨locate n f p, [], p, q :: rest, by simp [hf], rfl⟩
    · rw [if_neg hle]
      have hCs : ((C ++ List.replicate (q.first - p.first) (p.spc, p.desc)).map Prod.fst).sum =
          (C.map Prod.fst).sum + (q.first - p.first) * p.spc := by simp
      have hall : C ++ chunksOf (p :: q :: rest) N =
          C ++ List.replicate (q.first - p.first) (p.spc, p.desc) ++ chunksOf (q :: rest) N := by
        rw [hch]; simp
      obtain ⟨o, a, e, b, k1, k2⟩ := ih q (C ++ List.replicate (q.first - p.first) (p.spc, p.desc)) (i + 1)
        (f + (q.first - p.first) * p.spc) found hwf.tail (by rw [hCs]; omega)
        (by simp; omega) hN (by rw [← hall, hsum]; exact htot)
      refine ⟨o, p :: a, e, b, ?_, by simp [k2]⟩
      rw [k1]
      have heq : q.first ≤ e.first := hwf.tail.mono e (by rw [k2]; simp)
      have hsub : e.first - p.first = (q.first - p.first) + (e.first - q.first) := by omega
      have htake : (chunksOf (p :: q :: rest) N).take (e.first - p.first) =
          List.replicate (q.first - p.first) (p.spc, p.desc) ++
            (chunksOf (q :: rest) N).take (e.first - q.first) := by
        have := List.take_length_add_append
          (l₁ := List.replicate (q.first - p.first) (p.spc, p.desc))
          (l₂ := chunksOf (q :: rest) N) (e.first - q.first)
        rw [hch, hsub]
        simpa using this
      rw [htake]
      simp only [List.append_assoc, List.length_cons]
      congr 3
      omega

/-- `chunksOf` splits at the first chunk of an entry. -/
theorem chunksOf_split (N : Nat) : ∀ (a : List StscEntry) (e : StscEntry) (b : List StscEntry) (p : StscEntry)
    (rest : List StscEntry), p :: rest = a ++ e :: b → TailWF p rest N →
    ∃ C, C.length = e.first - p.first ∧ chunksOf (p :: rest) N = C ++ chunksOf (e :: b) N := by
  intro a
  induction a with
  | nil =>
    intro e b p rest h _
    simp only [List.nil_append, List.cons.injEq] at h
    obtain ⟨rfl, rfl⟩ := h
    exact ⟨[], by simp, by simp⟩
  | cons x a ih =>
    intro e b p rest h hwf
    simp only [List.cons_append, List.cons.injEq] at h
    obtain ⟨rfl, h⟩ := h
    cases rest with
    | nil => simp at h
    | cons q rest =>
      obtain ⟨C, h1, h2⟩ := ih e b q rest h hwf.tail
      have hpq := hwf.incr 0 p q (by simp) (by simp)
      have heq : q.first ≤ e.first := hwf.tail.mono e (by rw [h]; simp)
      refine ⟨List.replicate (q.first - p.first) (p.spc, p.desc) ++ C, by simp; omega, ?_⟩
      have hch : chunksOf (p :: q :: rest) N =
          List.replicate (q.first - p.first) (p.spc, p.desc) ++ chunksOf (q :: rest) N := by
        simp [chunksOf, chunkRuns]
      rw [hch, h2]; simp

theorem TailWF.drop {N : Nat} : ∀ (a : List StscEntry) {e : StscEntry} {b : List StscEntry} {p : StscEntry}
    {rest : List StscEntry}, p :: rest = a ++ e :: b → TailWF p rest N → TailWF e b N := by
  intro a
  induction a with
  | nil =>
    intro e b p rest h hwf
    simp only [List.nil_append, List.cons.injEq] at h
    obtain ⟨rfl, rfl⟩ := h
    exact hwf
  | cons x a ih =>
    intro e b p rest h hwf
    simp only [List.cons_append, List.cons.injEq] at h
    obtain ⟨rfl, h⟩ := h
    cases rest with
    | nil => simp at h
    | cons q rest => exact ih h hwf.tail

/-- What the cache must satisfy. -/
def CacheOK (t : Stsc) (N : Nat) : Prop :=
  t.foundFirst ≠ 0 → t.entries = [] ∨ ∃ a e b, t.entries = a ++ e :: b ∧ t.foundNum = a.length ∧
    t.foundFirst = 1 + (((chunksOf t.entries N).take (e.first - 1)).map Prod.fst).sum

theorem lookup_spec {t : Stsc} {N : Nat} (hwf : StscWF t.entries N) (hN : N < 4294967296)
    (htot : ((chunksOf t.entries N).map Prod.fst).sum + 1 < 4294967296) (hc : CacheOK t N) (n : Nat)
    (hn0 : n ≠ 0) :
    ∃ o t', lookup t n = .ok (o, t') ∧ t'.entries = t.entries ∧ CacheOK t' N ∧
      (n ≤ ((chunksOf t.entries N).map Prod.fst).sum →
        ∃ c c' s', ChunkHolds (chunksOf t.entries N) n c ∧ o.chunk = c + 1 ∧
          o.firstSample = some (samplesBefore (chunksOf t.entries N) c + 1) ∧
          ChunkHolds (chunksOf t.entries N) (max 1 (n - 1)) c' ∧
          (chunksOf t.entries N)[c']? = some (s', o.desc)) := by
  cases hes : t.entries with
  | nil =>
    refine ⟨⟨0, 0, none⟩,
      { t with foundNum := t.foundNum, foundFirst := if t.foundFirst ≠ 0 ∧ t.foundFirst < n then t.foundFirst else 1 }, ?_, hes,
      fun _ => Or.inl hes, ?_⟩
    · unfold lookup
      rw [if_neg hn0]
      simp [hes, lookLoop]
    · intro h; simp [chunksOf, chunkRuns] at h; omega
  | cons p rest =>
    have hp1 : p.first = 1 := hwf.head p (by rw [hes]; rfl)
    have hT : TailWF p rest N :=
      ⟨by rw [← hes]; exact hwf.incr, by rw [← hes]; exact hwf.last, by rw [← hes]; exact hwf.spc⟩
    rw [hes] at htot
    -- where the scan starts
    have start : ∀ (a : List StscEntry) (e : StscEntry) (b : List StscEntry) (f : Nat),
        p :: rest = a ++ e :: b → f = 1 + (((chunksOf (p :: rest) N).take (e.first - 1)).map Prod.fst).sum →
        (f < n ∨ (f = n ∧ n = 1)) →
        ∃ (o : Out) (t' : Stsc), (match lookLoop n ((p :: rest).drop a.length) a.length f t.foundNum with
          | .ok (o, found, first) => Res.ok (o, { t with foundNum := found, foundFirst := first })
          | .err e => .err e
          | .ub => .ub) = Res.ok (o, t') ∧ t'.entries = t.entries ∧ CacheOK t' N ∧
          (n ≤ ((chunksOf (p :: rest) N).map Prod.fst).sum →
            ∃ c c' s', ChunkHolds (chunksOf (p :: rest) N) n c ∧ o.chunk = c + 1 ∧
              o.firstSample = some (samplesBefore (chunksOf (p :: rest) N) c + 1) ∧
              ChunkHolds (chunksOf (p :: rest) N) (max 1 (n - 1)) c' ∧
              (chunksOf (p :: rest) N)[c']? = some (s', o.desc)) := by
      intro a e b f hab hf hfn
      obtain ⟨C, hC, hCe⟩ := chunksOf_split N a e b p rest hab hT
      have hTe := hT.drop a hab
      have hpe : p.first ≤ e.first := hT.mono e (by rw [hab]; simp)
      have hdrop : (p :: rest).drop a.length = e :: b := by rw [hab]; simp
      have htake : (chunksOf (p :: rest) N).take (e.first - 1) = C := by
        rw [hCe, List.take_append_of_le_length (by omega), List.take_of_length_le (by omega)]
      rw [htake] at hf
      obtain ⟨o, a', e', b', k1, k2⟩ := lookLoop_cache n N b e C a.length f t.foundNum hTe hf
        (by omega) hN (by rw [← hCe]; exact htot)
      rw [hdrop, k1]
      refine ⟨o, _, rfl, rfl, ?_, ?_⟩
      · intro _
        refine Or.inr ⟨a ++ a', e', b', ?_, ?_, ?_⟩
        · simp only [hes]; rw [hab, k2]; simp
        · simp
        · simp only [hes]
          have hee : e.first ≤ e'.first := hTe.mono e' (by rw [k2]; simp)
          have : e'.first - 1 = C.length + (e'.first - e.first) := by omega
          rw [hCe, this, List.take_length_add_append]
      · intro hn
        obtain ⟨o2, a2, e2, b2, c, c', s', g1, g2, g3, g4, g5, g6, g7⟩ := lookLoop_spec n N hN b e C a.length f
          t.foundNum hTe hf (by omega) (by rw [← hCe]; exact htot) hfn (by rw [← hCe]; exact hn)
        rw [k1] at g1
        simp only [Res.ok.injEq, Prod.mk.injEq] at g1
        obtain ⟨rfl, _⟩ := g1
        rw [← hCe] at g3 g5 g6 g7
        exact ⟨c, c', s', g3, g4, g5, g6, g7⟩
    unfold lookup
    rw [if_neg hn0]
    by_cases hcached : t.foundFirst ≠ 0 ∧ t.foundFirst < n
    · rcases hc hcached.1 with h | ⟨a, e, b, h1, h2, h3⟩
      · rw [hes] at h; simp at h
      · simp only [if_pos hcached]
        rw [hes] at h1 h3
        rw [h2, hes]
        have := start a e b t.foundFirst h1 h3 (Or.inl hcached.2)
        rw [h2, hes] at this
        exact this
    · simp only [if_neg hcached, hes]
      have := start [] p rest 1 rfl (by simp [hp1]) (by omega)
      rw [hes] at this
      exact this

end Verif.Stsc
