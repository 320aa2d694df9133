import Verif.Lemmas.Media
import Verif.Spec.Batch

/-!
# C25 — what is added as sample `n` is what is read as sample `n`
-/

namespace Verif.Media

/-- One sample as the caller supplies it. -/
structure Supplied where
  bytes : Bytes
  dur : Nat
  deriving DecidableEq, Repr

/-- What may happen to a media: a batch of samples is added (durations and sizes given one by one or
once for all; possibly with a new sample description referring to data reference `entry`), another
track adds bytes to the shared media data, or a sample is read. The functions stand for what
`realloc` leaves in new memory. -/
inductive Step
  | add (samples : List Supplied) (durs sizes : Batch) (entry : Option Nat)
      (junkB : Nat → UInt8) (junk : Nat → Nat)
  | other (bytes : Bytes) (junkB : Nat → UInt8)
  | look (n : Nat)

/-- Execute one step. -/
def apply (m : Media) : Step → Res Media
  | .add ss durs sizes entry junkB junk =>
    addSamples junkB junk m (ss.map Supplied.bytes).flatten ss.length durs.array sizes.array entry
  | .other bs junkB => otherTrack junkB m bs
  | .look n => (read m n).bind fun r => .ok r.2

/-- The samples a step supplies. -/
def Step.samples : Step → List Supplied
  | .add ss _ _ _ _ _ => ss
  | _ => []

/-- The bytes a step puts into the media data. -/
def Step.data : Step → Bytes
  | .add ss _ _ _ _ _ => (ss.map Supplied.bytes).flatten
  | .other bs _ => bs
  | .look _ => []

/-- A step that is used correctly, when `k` samples exist already and `hasDesc` says whether a sample
description does: sizes and durations are those of the samples, there is a description, it refers to
one of the `drefs` data references, and only existing samples are read. -/
def Step.Valid (drefs k : Nat) (hasDesc : Bool) : Step → Prop
  | .add ss durs sizes entry _ _ =>
    durs.values = ss.map Supplied.dur ∧ sizes.values = ss.map (fun s => s.bytes.length) ∧
    (ss ≠ [] → hasDesc = true ∨ entry ≠ none) ∧ ∀ d, entry = some d → 1 ≤ d ∧ d ≤ drefs
  | .other _ _ => True
  | .look n => 1 ≤ n ∧ n ≤ k

/-- Whether a step brings a description. -/
def Step.brings : Step → Bool
  | .add _ _ _ entry _ _ => entry.isSome
  | _ => false

/-- A history of correct steps. -/
def AllValid (drefs : Nat) : Nat → Bool → List Step → Prop
  | _, _, [] => True
  | k, hasDesc, s :: ss =>
    s.Valid drefs k hasDesc ∧ AllValid drefs (k + s.samples.length) (hasDesc || s.brings) ss

/-- What the tables and the media data look like after supplying the samples `S`, in chunks `C`
(offset, samples), when the media data is `D`. -/
structure Rep (m : Media) (S : List Supplied) (D : Bytes) (C : List (Nat × List Bytes)) : Prop where
  times : expand m.stts.entries = S.map Supplied.dur
  runs : Stts.Runs m.stts.entries
  cache : Stts.StrictCache m.stts
  sizes : Stsz.Inv m.stsz (S.map fun s => s.bytes.length)
  offs : Stco.Inv m.stco (C.map Prod.fst)
  chunks : ∃ cs, Stsc.Recorded m.stsc.entries cs ∧ cs.map Prod.fst = C.map (fun c => c.2.length) ∧
    (∀ c ∈ cs, 1 ≤ c.2 ∧ c.2 ≤ m.stsd.length) ∧ Stsc.StrictCache m.stsc cs.length
  pos : ∀ c ∈ C, c.2 ≠ []
  split : C.flatMap Prod.snd = S.map Supplied.bytes
  mdat : Mdat.Rep m.mdat D
  place : ∀ c ∈ C, c.1 + c.2.flatten.length ≤ D.length ∧
    (D.drop c.1).take c.2.flatten.length = c.2.flatten
  descs : ∀ d ∈ m.stsd, 1 ≤ d ∧ d ≤ m.drefs

/-- The limits. -/
structure Fits (S : List Supplied) (D : Bytes) (N : Nat) : Prop where
  samples : S.length + 1 < 1073739776
  chunks : N + 1 < 536869888
  time : (S.map Supplied.dur).sum < 4294967296
  data : D.length < 4294967296

theorem Rep.noOverflow {m : Media} {S D C} (h : Rep m S D C)
    (hs : S.length + 1 < 1073739776) (ht : (S.map Supplied.dur).sum < 4294967296) :
    Stts.NoOverflow m.stts.entries := by
  refine Stts.noOverflow_of_sum h.runs ?_ ?_
  · rw [h.times, List.length_map]; omega
  · rw [h.times]; exact ht

theorem Rep.other {m : Media} {S D C} (h : Rep m S D C) (bs : Bytes) {t' : Mdat.T}
    (ht : Mdat.Rep t' (D ++ bs)) : Rep { m with mdat := t' } S (D ++ bs) C := by
  refine { h with mdat := ht, place := ?_ }
  intro c hc
  obtain ⟨h1, h2⟩ := h.place c hc
  refine ⟨by rw [List.length_append]; omega, ?_⟩
  rw [List.drop_append_of_le_length (by omega), List.take_append_of_le_length (by rw [List.length_drop]; omega), h2]

theorem Rep.entry {m : Media} {S D C} (h : Rep m S D C) (entry : Option Nat)
    (he : ∀ d, entry = some d → 1 ≤ d ∧ d ≤ m.drefs) : Rep (setEntry m entry) S D C := by
  cases entry with
  | none => exact h
  | some d =>
    obtain ⟨cs, c1, c2, c3, c4⟩ := h.chunks
    refine { h with chunks := ⟨cs, c1, c2, ?_, c4⟩, descs := ?_ }
    · intro c hc
      have := c3 c hc
      simp only [setEntry, List.length_append, List.length_singleton]
      omega
    · intro x hx
      rcases List.mem_append.mp hx with hx | hx
      · exact h.descs x hx
      · simp at hx; subst hx; exact he x rfl

theorem batch_durations (b : Batch) (n : Nat) (hn : b.values.length = n) (h0 : 0 < n) :
    (b.array.length = 1 ∨ n ≤ b.array.length ∧ b.array ≠ []) ∧
      Stts.batchDurations n b.array = b.values := by
  cases b with
  | uniform c v =>
    simp only [Batch.values, List.length_replicate] at hn
    subst hn
    exact ⟨Or.inl rfl, by simp [Stts.batchDurations, Batch.array, Batch.values]⟩
  | each vs =>
    simp only [Batch.values] at hn
    subst hn
    refine ⟨Or.inr ⟨Nat.le_refl _, List.length_pos_iff.mp h0⟩, ?_⟩
    show Stts.batchDurations vs.length vs = vs
    unfold Stts.batchDurations
    by_cases h1 : vs.length = 1
    · match vs, h1 with
      | [x], _ => rfl
    · rw [if_neg h1, List.take_length]

theorem Rep.tableAdd {m : Media} {S D C} (h : Rep m S D C) (junk : Nat → Nat) (ss : List Supplied)
    (durs sizes : Batch) (hd : durs.values = ss.map Supplied.dur)
    (hz : sizes.values = ss.map fun s => s.bytes.length) (hne : ss ≠ []) (hdesc : m.stsd ≠ [])
    (hS : (S ++ ss).length + 1 < 1073739776) (hC : C.length + 2 < 536869888) :
    ∃ m', tableAdd junk m ss.length m.mdat.dataSize durs.array sizes.array = .ok m' ∧
      m'.mdat = m.mdat ∧ m'.stsd = m.stsd ∧ m'.drefs = m.drefs ∧
      ∀ t', Mdat.Rep t' (D ++ (ss.map Supplied.bytes).flatten) →
        Rep { m' with mdat := t' } (S ++ ss) (D ++ (ss.map Supplied.bytes).flatten)
          (C ++ [(D.length, ss.map Supplied.bytes)]) := by
  have hpos : 0 < ss.length := List.length_pos_iff.mpr hne
  have hdl : durs.values.length = ss.length := by rw [hd, List.length_map]
  have hzl : sizes.values.length = ss.length := by rw [hz, List.length_map]
  have hzc : sizes.count = ss.length := by rw [← hzl]; cases sizes <;> simp [Batch.count, Batch.values]
  rw [List.length_append] at hS
  obtain ⟨bd1, bd2⟩ := batch_durations durs ss.length hdl hpos
  have hel : (expand m.stts.entries).length = S.length := by rw [h.times, List.length_map]
  obtain ⟨es, s1, s2, s3⟩ := Stts.addSamples_ok (es := m.stts.entries) bd1 (by omega)
  rw [bd2] at s2 s3
  obtain ⟨stsz, z1, _, z3⟩ := Stsz.addSamples_ok junk h.sizes sizes
    (by intro e; rw [e] at hzl; simp at hzl; omega)
    (by rw [List.length_map, hzl]; omega)
  rw [hzc] at z1
  obtain ⟨stco, o1, o2⟩ := Stco.addOffset_ok junk h.offs m.mdat.dataSize
    (by rw [List.length_map]; omega)
  obtain ⟨cs, c1, c2, c3, c4⟩ := h.chunks
  have hcl : cs.length = C.length := by
    have := congrArg List.length c2; simpa using this
  have hcount : stco.count = cs.length + 1 := by
    rw [o2.count, List.length_append, List.length_map, List.length_singleton, hcl]
  have hdl0 : m.stsd.length ≠ 0 := fun e => hdesc (List.length_eq_zero_iff.mp e)
  refine ⟨{ m with
      stts := { m.stts with entries := es }
      stsz := stsz
      stco := stco
      stsc := { m.stsc with entries := Stsc.setEntry m.stsc.entries stco.count ss.length m.stsd.length } },
    ?_, rfl, rfl, rfl, ?_⟩
  · unfold Media.tableAdd
    rw [s1]
    simp only [Res.bind]
    rw [if_neg hdl0, z1]
    simp only [Res.bind, o1]
  · intro t' ht'
    refine ⟨?_, ?_, ?_, ?_, ?_, ?_, ?_, ?_, ht', ?_, h.descs⟩
    · show expand es = _
      rw [s3, h.times, hd, List.map_append]
    · show Stts.Runs es
      rw [s2]
      exact Stts.runs_foldl _ _ h.runs (by rw [hel, hdl]; omega)
    · have : Stts.Keeps m.stts.entries es := by rw [s2]; exact Stts.keeps_foldl _ _
      exact h.cache.add this
    · show Stsz.Inv stsz _
      rw [hz] at z3
      rw [List.map_append]; exact z3
    · show Stco.Inv stco _
      rw [h.mdat.size] at o2
      rw [List.map_append]; exact o2
    · refine ⟨cs ++ [(ss.length, m.stsd.length)], ?_, ?_, ?_, ?_⟩
      · show Stsc.Recorded (Stsc.setEntry m.stsc.entries stco.count ss.length m.stsd.length) _
        rw [hcount]; exact Stsc.recorded_step c1 _ _
      · rw [List.map_append, List.map_append, c2]; simp
      · intro c hc
        rcases List.mem_append.mp hc with hc | hc
        · exact c3 c hc
        · simp at hc; subst hc; exact ⟨by show 1 ≤ m.stsd.length; omega, Nat.le_refl _⟩
      · have := c4.add c1 ss.length m.stsd.length
        rw [List.length_append, List.length_singleton]
        show Stsc.StrictCache { m.stsc with entries := Stsc.setEntry m.stsc.entries stco.count ss.length m.stsd.length } _
        rw [hcount]; exact this
    · intro c hc
      rcases List.mem_append.mp hc with hc | hc
      · exact h.pos c hc
      · simp at hc; subst hc; simpa using hne
    · rw [List.flatMap_append, h.split]; simp
    · intro c hc
      rcases List.mem_append.mp hc with hc | hc
      · exact (h.other _ ht').place c hc
      · simp only [List.mem_singleton] at hc
        subst hc
        refine ⟨by rw [List.length_append]; exact Nat.le_refl _, ?_⟩
        simp only [List.drop_left, List.take_length]

/-- Where an existing sample is. -/
theorem Rep.locate {m : Media} {S D C} (h : Rep m S D C) (hf : Fits S D C.length)
    {n : Nat} (h1 : 1 ≤ n) (h2 : n ≤ S.length) :
    ∃ o st first off pos, Stsc.lookup m.stsc n = .ok (o, st) ∧ o.firstSample = some first ∧
      Stsz.getSampleSizeAndOffset m.stsz n first = .ok (S[n - 1].bytes.length, pos) ∧
      Stco.getChunkOffset m.stco o.chunk = .ok off ∧ 1 ≤ o.desc ∧ o.desc ≤ m.stsd.length ∧
      off + pos + S[n - 1].bytes.length ≤ D.length ∧ (D.drop (off + pos)).take S[n - 1].bytes.length = S[n - 1].bytes ∧
      Rep { m with stsc := st } S D C := by
  obtain ⟨cs, c1, c2, c3, c4⟩ := h.chunks
  have hcl : cs.length = C.length := by
    have := congrArg List.length c2; simpa using this
  have hposs : ∀ c ∈ cs, 0 < c.1 := by
    intro c hc
    have : c.1 ∈ cs.map Prod.fst := List.mem_map_of_mem hc
    rw [c2] at this
    obtain ⟨x, hx, e⟩ := List.mem_map.mp this
    rw [← e]; exact List.length_pos_iff.mpr (h.pos x hx)
  have hwf := c1.wf hposs
  have hchunks := c1.chunks
  have hlenSum : (cs.map Prod.fst).sum = S.length := by
    rw [c2]
    have := congrArg List.length h.split
    rw [List.length_flatMap, List.length_map] at this
    exact this
  have hfs := hf.samples
  have hfc := hf.chunks
  obtain ⟨o, st, l1, l2, l3, l4⟩ := Stsc.lookup_spec (t := m.stsc) hwf (by omega)
    (by rw [hchunks, hlenSum]; omega) c4.toOK n (by omega)
  obtain ⟨c, c', s', g1, g2, g3, _, g5⟩ := l4 (by rw [hchunks, hlenSum]; exact h2)
  rw [hchunks] at g1 g3 g5
  obtain ⟨s0, d0, e1, e2, e3⟩ := g1
  -- the chunk
  have hcC : c < C.length := by rw [← hcl]; exact (List.getElem?_eq_some_iff.mp e1).1
  obtain ⟨C1, x, C2, hCC, hC1⟩ : ∃ C1 x C2, C = C1 ++ x :: C2 ∧ C1.length = c :=
    ⟨C.take c, C[c], C.drop (c + 1), by rw [List.getElem_cons_drop, List.take_append_drop],
      by rw [List.length_take]; omega⟩
  have hs0 : s0 = x.2.length := by
    have a : (cs.map Prod.fst)[c]? = some s0 := by rw [List.getElem?_map, e1]; rfl
    rw [c2, List.getElem?_map, hCC, List.getElem?_append_right (by omega), hC1, Nat.sub_self] at a
    simpa using a.symm
  have hbefore : samplesBefore cs c = (C1.flatMap Prod.snd).length := by
    unfold samplesBefore startOf
    rw [c2, hCC, ← List.map_take, ← hC1, List.take_left, List.length_flatMap]
  have hsplit : S.map Supplied.bytes = C1.flatMap Prod.snd ++ (x.2 ++ C2.flatMap Prod.snd) := by
    rw [← h.split, hCC]; simp
  obtain ⟨k, hk⟩ : ∃ k, n - 1 = samplesBefore cs c + k := ⟨n - 1 - samplesBefore cs c, by omega⟩
  have hkx : k < x.2.length := by omega
  have hsn : n - 1 < S.length := by omega
  have hb : x.2[k]? = some S[n - 1].bytes := by
    generalize hy : S[n - 1].bytes = y
    have a : (S.map Supplied.bytes)[n - 1]? = some y := by
      rw [List.getElem?_map, List.getElem?_eq_getElem hsn, ← hy]; rfl
    rw [hsplit, hk, hbefore, List.getElem?_append_right (by omega), Nat.add_sub_cancel_left,
      List.getElem?_append_left hkx] at a
    exact a
  -- offset inside the chunk
  have hmem : x ∈ C := by rw [hCC]; simp
  obtain ⟨p1, p2⟩ := h.place x hmem
  have hsl := slice_le _ _ _ hb
  have hoff : ((((S.map fun s => s.bytes.length).drop (samplesBefore cs c + 1 - 1)).take
      (n - (samplesBefore cs c + 1))).sum) = (x.2.take k).flatten.length := by
    have a : (S.map fun s => s.bytes.length) = (S.map Supplied.bytes).map List.length := by
      rw [List.map_map]; rfl
    rw [a, hsplit, List.map_append, Nat.add_sub_cancel, hbefore,
      List.drop_left' (by rw [List.length_map]),
      show n - ((C1.flatMap Prod.snd).length + 1) = k by omega, ← List.map_take,
      List.take_append_of_le_length (by omega), map_length_sum]
  have hsz := Stsz.Rep.sizeAndOffset h.sizes.toRep (n := n) (f := samplesBefore cs c + 1)
    (by omega) (by omega) (by rw [List.length_map]; exact h2)
  have hfd := hf.data
  rw [hoff, Nat.mod_eq_of_lt (by omega)] at hsz
  simp only [List.getElem_map] at hsz
  have hco := h.offs.getChunkOffset o.chunk
  have hcx : (C.map Prod.fst)[c]? = some x.1 := by
    rw [List.getElem?_map, hCC, List.getElem?_append_right (by omega), hC1, Nat.sub_self]; rfl
  have hco : Stco.getChunkOffset m.stco o.chunk = .ok x.1 := by
    rw [hco, dif_pos ⟨by omega, by rw [List.length_map]; omega⟩]
    congr 1
    have := (List.getElem?_eq_some_iff.mp hcx).2
    simp only [g2, Nat.add_sub_cancel]
    exact this
  have hdd := c3 _ (List.mem_of_getElem? g5)
  simp only at hdd
  have hdl : o.desc - 1 < m.stsd.length := by omega
  have hdr := h.descs _ (List.getElem_mem hdl)
  have hne : m.stsc.entries ≠ [] := by
    intro e
    have := hchunks
    rw [e] at this
    simp [chunksOf, chunkRuns] at this
    subst this
    simp at e1
  refine ⟨o, st, _, x.1, (x.2.take k).flatten.length, l1, g3, hsz, hco, by omega, by omega, by omega, ?_, ?_⟩
  · rw [← List.drop_drop]
    have := flatten_slice _ _ _ hb
    rw [← p2, List.drop_take, List.take_take, Nat.min_eq_left (by omega)] at this
    exact this
  · refine { h with chunks := ⟨cs, ?_, c2, c3, ?_⟩ }
    · rw [l2]; exact c1
    · rw [hcl]; rw [hcl] at l3; exact l3.toStrict (by rw [l2]; exact hne)

/-- Reading an existing sample. -/
theorem Rep.read {m : Media} {S D C} (h : Rep m S D C) (hf : Fits S D C.length)
    {n : Nat} (h1 : 1 ≤ n) (h2 : n ≤ S.length) :
    ∃ m' d, Media.read m n = .ok (⟨S[n - 1].bytes, S[n - 1].bytes.length,
        startOf (S.map Supplied.dur) (n - 1), u64i (s32 S[n - 1].dur), d⟩, m') ∧ Rep m' S D C ∧
      m'.stsd = m.stsd ∧ m'.drefs = m.drefs := by
  obtain ⟨o, st, first, off, pos, l1, l2, l3, l4, l5, l6, l7, l8, l9⟩ := h.locate hf h1 h2
  have hfs := hf.samples
  have hfd := hf.data
  have hdl : o.desc - 1 < m.stsd.length := by omega
  have hdr := h.descs _ (List.getElem_mem hdl)
  have hsn : n - 1 < S.length := by omega
  -- time
  have hno := h.noOverflow hfs hf.time
  have hlen : (expand m.stts.entries).length = S.length := by rw [h.times, List.length_map]
  obtain ⟨t1, t2⟩ := (Stts.getTime_spec hno h.cache.toOK n).2 h1 (by rw [hlen]; exact h2)
  have t3 := Stts.getTime_strict hno h.cache h1 (by rw [hlen]; exact h2)
  rw [h.times] at t1 t2
  rw [List.getElem?_map, List.getElem?_eq_getElem hsn, Option.map_some, Option.some.injEq] at t2
  -- bytes
  have hcopy : (if S[n - 1].bytes.length > 0 then
      Mdat.copyData m.mdat w64(off + pos) S[n - 1].bytes.length
      else Res.ok []) = .ok S[n - 1].bytes := by
    by_cases h0 : S[n - 1].bytes.length > 0
    · rw [if_pos h0, Nat.mod_eq_of_lt (by omega), Mdat.copyData_cases h.mdat (by omega) (by omega) (by omega)]
      rw [if_neg, if_neg (by omega), l8]
      intro hor
      rcases hor with hor | hor
      · omega
      · have := h.mdat.null hor
        have := h.mdat.fits
        omega
    · rw [if_neg h0, List.length_eq_zero_iff.mp (show S[n - 1].bytes.length = 0 by omega)]
  refine ⟨{ m with stts := (Stts.getTime m.stts n).2, stsc := st }, o.desc, ?_, ?_, rfl, rfl⟩
  · unfold Media.read
    rw [l1]
    simp only [Res.bind, l2, l3, l4]
    rw [if_neg (by omega), List.getElem?_eq_getElem hdl]
    dsimp only
    rw [if_neg (by omega), hcopy, t1, ← t2]
  · refine { l9 with times := ?_, runs := ?_, cache := t3 }
    · rw [Stts.getTime_entries]; exact h.times
    · rw [Stts.getTime_entries]; exact h.runs

/-- The lookup of an existing sample alone. -/
theorem Rep.lookup {m : Media} {S D C} (h : Rep m S D C) (hfs : S.length + 1 < 1073739776)
    (hfc : C.length + 1 < 536869888) {n : Nat} (h1 : 1 ≤ n) (h2 : n ≤ S.length) :
    ∃ o st, Stsc.lookup m.stsc n = .ok (o, st) ∧ Rep { m with stsc := st } S D C ∧
      1 ≤ o.desc ∧ o.desc ≤ m.stsd.length := by
  obtain ⟨cs, c1, c2, c3, c4⟩ := h.chunks
  have hcl : cs.length = C.length := by
    have := congrArg List.length c2; simpa using this
  have hposs : ∀ c ∈ cs, 0 < c.1 := by
    intro c hc
    have : c.1 ∈ cs.map Prod.fst := List.mem_map_of_mem hc
    rw [c2] at this
    obtain ⟨x, hx, e⟩ := List.mem_map.mp this
    rw [← e]; exact List.length_pos_iff.mpr (h.pos x hx)
  have hwf := c1.wf hposs
  have hchunks := c1.chunks
  have hlenSum : (cs.map Prod.fst).sum = S.length := by
    rw [c2]
    have := congrArg List.length h.split
    rw [List.length_flatMap, List.length_map] at this
    exact this
  obtain ⟨o, st, l1, l2, l3, l4⟩ := Stsc.lookup_spec (t := m.stsc) hwf (by omega)
    (by rw [hchunks, hlenSum]; omega) c4.toOK n (by omega)
  obtain ⟨c, c', s', g1, g2, g3, _, g5⟩ := l4 (by rw [hchunks, hlenSum]; exact h2)
  rw [hchunks] at g1 g5
  obtain ⟨s0, d0, e1, e2, e3⟩ := g1
  have hdd := c3 _ (List.mem_of_getElem? g5)
  simp only at hdd
  have hne : m.stsc.entries ≠ [] := by
    intro e
    have := hchunks
    rw [e] at this
    simp [chunksOf, chunkRuns] at this
    subst this
    simp at e1
  refine ⟨o, st, l1, { h with chunks := ⟨cs, ?_, c2, c3, ?_⟩ }, hdd⟩
  · rw [l2]; exact c1
  · rw [hcl]; rw [hcl] at l3; exact l3.toStrict (by rw [l2]; exact hne)

theorem rep_create (drefs : Nat) : Rep (create drefs) [] [] [] := by
  refine ⟨rfl, ⟨by intro e he; simp [create, Stts.create, Stts.ofEntries] at he,
      by intro i a b ha; simp [create, Stts.create, Stts.ofEntries] at ha⟩,
    by intro h; simp [create, Stts.create, Stts.ofEntries] at h, ⟨rfl, Or.inl ⟨rfl, rfl, rfl, rfl⟩⟩,
    Stco.inv_create, ⟨[], Stsc.recorded [], rfl, by simp, by intro h; exact absurd rfl h⟩, by simp, rfl,
    Mdat.rep_create, by simp, by simp [create]⟩

/-- The samples and the bytes of a history. -/
def supplied (h : List Step) : List Supplied := h.flatMap Step.samples

def dataOf (h : List Step) : Bytes := h.flatMap Step.data

/-- One step. -/
theorem step_rep {drefs : Nat} (s : Step) {m : Media} {S : List Supplied} {D : Bytes}
    {C : List (Nat × List Bytes)} {hasDesc : Bool} (hR : Rep m S D C) (hdr : m.drefs = drefs)
    (hds : hasDesc = true → m.stsd ≠ []) (hv : s.Valid drefs S.length hasDesc)
    (hS' : (S ++ s.samples).length + 1 < 1073739776) (hC : C.length + 2 < 536869888)
    (hT' : (S.map Supplied.dur).sum < 4294967296) (hD' : (D ++ s.data).length < 4294967296) :
    ∃ m1 C1, apply m s = .ok m1 ∧ Rep m1 (S ++ s.samples) (D ++ s.data) C1 ∧
      C1.length ≤ C.length + 1 ∧ m1.drefs = drefs ∧
      ((hasDesc || s.brings) = true → m1.stsd ≠ []) := by
  cases s with
  | other bs junkB =>
    obtain ⟨t', a1, a2, _⟩ := Mdat.addData_ok junkB hR.mdat (bs := bs)
      (by have : (D ++ bs).length < 4294967296 := hD'; omega)
    refine ⟨{ m with mdat := t' }, C, ?_, ?_, by omega, hdr, ?_⟩
    · simp only [apply, otherTrack, a1, Res.bind]
    · simpa [Step.samples, Step.data] using hR.other bs a2
    · intro hh; exact hds (by simpa [Step.brings] using hh)
  | look n =>
    obtain ⟨m', d, r1, r2, r3, r4⟩ := hR.read
      ⟨by simpa [Step.samples] using hS', by omega, hT', by simpa [Step.data] using hD'⟩ hv.1 hv.2
    refine ⟨m', C, ?_, by simpa [Step.samples, Step.data] using r2, by omega, by rw [r4, hdr], ?_⟩
    · simp only [apply, r1, Res.bind]
    · intro hh; rw [r3]; exact hds (by simpa [Step.brings] using hh)
  | add ss durs sizes entry junkB junk =>
    obtain ⟨v1, v2, v3, v4⟩ := hv
    have hRe := hR.entry entry (by rw [hdr]; exact v4)
    have hmd : (setEntry m entry).mdat = m.mdat := by cases entry <;> rfl
    have hdr' : (setEntry m entry).drefs = drefs := by cases entry <;> simpa [setEntry] using hdr
    have hstsd : (hasDesc || entry.isSome) = true → (setEntry m entry).stsd ≠ [] := by
      intro hh
      cases entry with
      | none => exact hds (by simpa using hh)
      | some d => simp [setEntry]
    by_cases hss : ss = []
    · subst hss
      refine ⟨setEntry m entry, C, ?_, by simpa [Step.samples, Step.data] using hRe, by omega, hdr', ?_⟩
      · simp [apply, addSamples]
      · exact hstsd
    · have hpos : 0 < ss.length := List.length_pos_iff.mpr hss
      have hne : (setEntry m entry).stsd ≠ [] := by
        apply hstsd
        rcases v3 hss with e | e
        · simp [e]
        · cases entry with
          | none => exact absurd rfl e
          | some d => simp
      obtain ⟨m', t1, t2, t3, t4, t5⟩ := hRe.tableAdd junk ss durs sizes v1 v2 hss hne hS' (by omega)
      have hrep' : Mdat.Rep m'.mdat D := by rw [t2, hmd]; exact hR.mdat
      obtain ⟨t', a1, a2, _⟩ := Mdat.addData_ok junkB hrep' (bs := (ss.map Supplied.bytes).flatten)
        (by have : (D ++ (ss.map Supplied.bytes).flatten).length < 4294967296 := hD'; omega)
      refine ⟨{ m' with mdat := t' }, _, ?_, t5 t' a2, by simp, by rw [← hdr', ← t4], ?_⟩
      · obtain ⟨l, hl⟩ : ∃ l, (setEntry m entry).stsd.getLast? = some l := by
          cases hx : (setEntry m entry).stsd.getLast? with
          | none => exact absurd (List.getLast?_eq_none_iff.mp hx) hne
          | some l => exact ⟨l, rfl⟩
        have hlr := hRe.descs l (List.mem_of_getLast? hl)
        rw [hdr'] at hlr
        rw [hmd] at t1
        simp only [apply, addSamples]
        rw [if_pos hpos, hl]
        dsimp only
        rw [if_neg (by rw [hdr]; omega), t1]
        simp only [Res.bind, a1]
      · intro _; rw [t3]; exact hne

theorem run_rep (drefs : Nat) : ∀ (h : List Step) (m : Media) (S : List Supplied) (D : Bytes)
    (C : List (Nat × List Bytes)) (hasDesc : Bool), Rep m S D C → m.drefs = drefs →
    (hasDesc = true → m.stsd ≠ []) → AllValid drefs S.length hasDesc h →
    (S ++ supplied h).length + 1 < 1073739776 → C.length + h.length + 1 < 536869888 →
    ((S ++ supplied h).map Supplied.dur).sum < 4294967296 → (D ++ dataOf h).length < 4294967296 →
    ∃ m' C', runAll apply m h = .ok m' ∧ Rep m' (S ++ supplied h) (D ++ dataOf h) C' ∧
      C'.length + 1 < 536869888 := by
  intro h
  induction h with
  | nil =>
    intro m S D C _ hR _ _ _ _ hC _ _
    exact ⟨m, C, rfl, by simpa [supplied, dataOf] using hR, by simp at hC; omega⟩
  | cons s h ih =>
    intro m S D C hasDesc hR hdr hds hval hS hC hT hD
    have eS : S ++ supplied (s :: h) = (S ++ s.samples) ++ supplied h := by simp [supplied]
    have eD : D ++ dataOf (s :: h) = (D ++ s.data) ++ dataOf h := by simp [dataOf]
    rw [eS] at hS hT
    rw [eD] at hD
    rw [eS, eD]
    simp only [List.length_cons] at hC
    obtain ⟨hv, hrest⟩ := hval
    -- one step
    obtain ⟨m1, C1, p1, p2, p3, p4, p5⟩ := step_rep s hR hdr hds hv (by rw [List.length_append] at hS; omega) (by omega)
      (by rw [List.map_append, List.map_append, List.sum_append, List.sum_append] at hT; omega)
      (by rw [List.length_append] at hD; omega)
    obtain ⟨m', C', q1, q2, q3⟩ := ih m1 _ _ C1 (hasDesc || s.brings) p2 p4 p5
      (by rw [List.length_append]; exact hrest) hS (by omega) hT hD
    exact ⟨m', C', by simp only [runAll, p1, Res.bind]; exact q1, q2, q3⟩

/-- What a reader gets for a supplied duration: the value passes through a signed 32-bit variable. -/
theorem out_duration (d : Nat) (hd : d < 4294967296) :
    u64i (s32 d) = if d < 2147483648 then d else d + 18446744069414584320 := by
  unfold s32 u64i
  split <;> omega

theorem read_all (drefs : Nat) (h : List Step) (hval : AllValid drefs 0 false h)
    (hS : (supplied h).length + 1 < 1073739776) (hC : h.length + 1 < 536869888)
    (hT : ((supplied h).map Supplied.dur).sum < 4294967296) (hD : (dataOf h).length < 4294967296) :
    ∃ m, runAll apply (create drefs) h = .ok m ∧
      ∀ (n : Nat) (s : Supplied), (supplied h)[n]? = some s →
        ∃ r m', read m (n + 1) = .ok (r, m') ∧ r.bytes = s.bytes ∧ r.size = s.bytes.length ∧
          r.dts = (((supplied h).take n).map Supplied.dur).sum ∧ r.duration = u64i (s32 s.dur) := by
  obtain ⟨m, C, h1, h2, h3⟩ := run_rep drefs h (create drefs) [] [] [] false (rep_create drefs) rfl
    (by simp) hval (by simpa using hS) (by simpa using hC) (by simpa using hT) (by simpa using hD)
  rw [List.nil_append, List.nil_append] at h2
  refine ⟨m, h1, ?_⟩
  intro n s hs
  obtain ⟨hn, hse⟩ := List.getElem?_eq_some_iff.mp hs
  obtain ⟨m', d, r1, _⟩ := h2.read ⟨hS, h3, hT, hD⟩ (n := n + 1) (by omega) (by omega)
  simp only [Nat.add_sub_cancel, hse] at r1
  exact ⟨_, m', r1, rfl, rfl, by simp only [startOf]; rw [List.map_take], rfl⟩

theorem dur_lt {h : List Step} (hT : ((supplied h).map Supplied.dur).sum < 4294967296) {n : Nat}
    {s : Supplied} (hs : (supplied h)[n]? = some s) : s.dur < 4294967296 := by
  have hm : s.dur ∈ (supplied h).map Supplied.dur := List.mem_map_of_mem (List.mem_of_getElem? hs)
  have : ∀ (l : List Nat), s.dur ∈ l → s.dur ≤ l.sum := by
    intro l
    induction l with
    | nil => intro hx; simp at hx
    | cons a l ih =>
      intro hx
      rw [List.sum_cons]
      rcases List.mem_cons.mp hx with hx | hx
      · omega
      · have := ih hx; omega
  have := this _ hm
  omega

/-- After any correct history on a new media — batches with any sizes and durations, in any of the
handle forms, with any descriptions, interleaved with reads and with other tracks writing to the same
media data — reading sample `n` succeeds and returns the bytes, size and duration supplied for it,
and as decoding time the sum of the durations before it. Limits: total data and time below 2^32,
each duration below 2^31, fewer than 1073739775 samples and 536869887 operations. -/
theorem c25_read_what_was_added (drefs : Nat) (h : List Step) (hval : AllValid drefs 0 false h)
    (hS : (supplied h).length + 1 < 1073739776) (hC : h.length + 1 < 536869888)
    (hT : ((supplied h).map Supplied.dur).sum < 4294967296) (hD : (dataOf h).length < 4294967296)
    (hdur : ∀ s ∈ supplied h, s.dur < 2147483648) :
    ∃ m, runAll apply (create drefs) h = .ok m ∧
      ∀ (n : Nat) (s : Supplied), (supplied h)[n]? = some s →
        ∃ r m', read m (n + 1) = .ok (r, m') ∧ r.bytes = s.bytes ∧ r.size = s.bytes.length ∧
          r.dts = (((supplied h).take n).map Supplied.dur).sum ∧ r.duration = s.dur := by
  obtain ⟨m, h1, h2⟩ := read_all drefs h hval hS hC hT hD
  refine ⟨m, h1, fun n s hs => ?_⟩
  obtain ⟨r, m', k1, k2, k3, k4, k5⟩ := h2 n s hs
  refine ⟨r, m', k1, k2, k3, k4, ?_⟩
  rw [k5, out_duration _ (dur_lt hT hs), if_pos (hdur s (List.mem_of_getElem? hs))]

/-- The bound on durations is needed: a duration of 2^31 or more is always returned wrong, with its
upper 32 bits all ones, although bytes, size and decoding time are right. -/
theorem c25_long_duration_wrong (drefs : Nat) (h : List Step) (hval : AllValid drefs 0 false h)
    (hS : (supplied h).length + 1 < 1073739776) (hC : h.length + 1 < 536869888)
    (hT : ((supplied h).map Supplied.dur).sum < 4294967296) (hD : (dataOf h).length < 4294967296) :
    ∃ m, runAll apply (create drefs) h = .ok m ∧
      ∀ (n : Nat) (s : Supplied), (supplied h)[n]? = some s → 2147483648 ≤ s.dur →
        ∃ r m', read m (n + 1) = .ok (r, m') ∧ r.duration = s.dur + 18446744069414584320 := by
  obtain ⟨m, h1, h2⟩ := read_all drefs h hval hS hC hT hD
  refine ⟨m, h1, fun n s hs hd => ?_⟩
  obtain ⟨r, m', k1, _, _, _, k5⟩ := h2 n s hs
  exact ⟨r, m', k1, by rw [k5, out_duration _ (dur_lt hT hs), if_neg (by omega)]⟩

/-- A history meeting the hypotheses: two batches in different handle forms, two descriptions,
another track's bytes in between, and reads. -/
def demo (jb : Nat → UInt8) (j : Nat → Nat) : List Step :=
  [.other [9, 9, 9] jb, .add [⟨[1, 2], 10⟩, ⟨[3, 4], 10⟩] (.uniform 2 10) (.uniform 2 2) (some 1) jb j,
   .look 2, .other [8] jb, .add [⟨[5], 7⟩, ⟨[], 10⟩, ⟨[6, 7, 8], 9⟩] (.each [7, 10, 9]) (.each [1, 0, 3]) (some 1) jb j,
   .look 5, .add [] (.each []) (.each []) none jb j]

example (jb : Nat → UInt8) (j : Nat → Nat) : AllValid 1 0 false (demo jb j) ∧
    supplied (demo jb j) = [⟨[1, 2], 10⟩, ⟨[3, 4], 10⟩, ⟨[5], 7⟩, ⟨[], 10⟩, ⟨[6, 7, 8], 9⟩] ∧
    dataOf (demo jb j) = [9, 9, 9, 1, 2, 3, 4, 8, 5, 6, 7, 8] := by
  refine ⟨?_, rfl, rfl⟩
  simp [demo, AllValid, Step.Valid, Step.samples, Step.brings, Batch.values, List.replicate]

/-- So its third sample is read back with decoding time 20. -/
example (jb : Nat → UInt8) (j : Nat → Nat) : ∃ m, runAll apply (create 1) (demo jb j) = .ok m ∧
    ∃ r m', read m 3 = .ok (r, m') ∧ r.bytes = [5] ∧ r.dts = 20 ∧ r.duration = 7 := by
  have e : supplied (demo jb j) = [⟨[1, 2], 10⟩, ⟨[3, 4], 10⟩, ⟨[5], 7⟩, ⟨[], 10⟩, ⟨[6, 7, 8], 9⟩] := rfl
  obtain ⟨m, h1, h2⟩ := c25_read_what_was_added 1 (demo jb j)
    (by simp [demo, AllValid, Step.Valid, Step.samples, Step.brings, Batch.values, List.replicate])
    (by rw [e]; decide) (by simp [demo]) (by rw [e]; decide) (by simp [demo, dataOf, Step.data])
    (by rw [e]; decide)
  obtain ⟨r, m', k1, k2, _, k4, k5⟩ := h2 2 ⟨[5], 7⟩ rfl
  exact ⟨m, h1, r, m', k1, k2, k4, k5⟩

end Verif.Media
