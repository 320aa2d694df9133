import Verif.Props.C25
import Verif.Props.C16
import Verif.Props.C17
import Verif.Model.Reader

/-!
# C42 — reading a track without edits yields every sample once, in order, then end of file
-/

namespace Verif.Reader

open Media (Supplied)

/-! ## What a reader should return -/

/-- Decoding time of sample `i` (from 0): the durations before it. -/
def timeOf (S : List Supplied) (i : Nat) : Nat := ((S.take i).map Supplied.dur).sum

/-- What the reader should return for sample `i`: its bytes, size, flags (1: not a sync sample, 2: the
track has composition offsets), composition time, decoding time and duration. `offs` are the composition
offsets as 32-bit patterns, `has` says whether the track has any; samples are sync unless `sync` says
otherwise. -/
def unitOf (S : List Supplied) (has : Bool) (offs : List Nat) (sync : List Bool) (i : Nat) (s : Supplied) : AccessUnit :=
  ⟨s.bytes, s.bytes.length, (if sync.getD i true then 0 else 1) + (if has then 2 else 0),
    timeOf S i + s32 (offs.getD i 0), timeOf S i, s.dur⟩

/-- The results of `k` calls: the samples in order, then end of file. -/
def wanted (S : List Supplied) (has : Bool) (offs : List Nat) (sync : List Bool) (k : Nat) : List (Res AccessUnit) :=
  (List.range k).map fun i => match S[i]? with
    | some s => .ok (unitOf S has offs sync i s)
    | none => .err .eof

/-! ## One call -/

/-- The two optional tables say what they should. -/
structure Tables (t : Track) (N : Nat) (has : Bool) (offs : List Nat) (sync : List Bool) : Prop where
  has : t.ctts.isSome = has
  offset : ∀ i, i < N → Ctts.offsetOf ⟨0, t.ctts⟩ (i + 1) = offs.getD i 0
  sync : ∀ i, i < N → Stss.isSync ⟨0, t.stss⟩ (i + 1) = .ok (sync.getD i true)

/-- A reader without edits, at sample `i`. -/
structure At (r : Reader) (N i : Nat) : Prop where
  elst : r.elst = none
  segments : r.segments = 1
  nextSegment : r.nextSegment = 0
  mediaTime : r.mediaTime = 0
  beginTime : r.beginTime = 0
  count : r.count = N
  next : r.next = i + 1

theorem startOf_timeOf (S : List Supplied) (i : Nat) : startOf (S.map Supplied.dur) i = timeOf S i := by
  unfold startOf timeOf; rw [List.map_take]

theorem timeOf_add {S : List Supplied} {i : Nat} {s : Supplied} (h : S[i]? = some s) :
    timeOf S i + s.dur ≤ (S.map Supplied.dur).sum := by
  obtain ⟨hi, he⟩ := List.getElem?_eq_some_iff.mp h
  unfold timeOf
  have hd := List.take_append_drop i S
  rw [List.drop_eq_getElem_cons hi] at hd
  conv => rhs; rw [← hd]
  rw [List.map_append, List.sum_append, List.map_cons, List.sum_cons, he]
  omega

theorem At.dts {r : Reader} {N i : Nat} (h : At r N i) {t : Nat} (ht : t < 4294967296) : dtsOf r t = s32 t := by
  unfold dtsOf
  rw [h.mediaTime, h.beginTime]
  have e : u64i 0 = 0 := rfl
  rw [e, show ((t + (18446744073709551616 - 0)) % 18446744073709551616 + 0) % 18446744073709551616 % 4294967296 = t by omega]

/-- The result for sample `i`, with the decoding time as the `s32` of the same 32 bits. -/
def resultAt (S : List Supplied) (has : Bool) (offs : List Nat) (sync : List Bool) (i : Nat) : Res AccessUnit :=
  match S[i]? with
  | some s => .ok { unitOf S has offs sync i s with
      cts := s32 (timeOf S i) + (if has then s32 (offs.getD i 0) else 0), dts := s32 (timeOf S i) }
  | none => .err .eof

/-- A call that finds a sample. The decoding time is the 32-bit pattern of the right one. -/
theorem next_sample {t : Track} {S D C has offs sync} (hR : Media.Rep t.media S D C) (hf : Media.Fits S D C.length)
    (ht : Tables t S.length has offs sync) {r : Reader} {i : Nat} (hr : At r S.length i) {s : Supplied}
    (hs : S[i]? = some s)
    (hov : has = true → -2147483648 ≤ s32 (timeOf S i) + s32 (offs.getD i 0) ∧
      s32 (timeOf S i) + s32 (offs.getD i 0) < 2147483648) :
    ∃ t' r', next t r = ((t', r'), .ok { unitOf S has offs sync i s with
        cts := s32 (timeOf S i) + (if has then s32 (offs.getD i 0) else 0), dts := s32 (timeOf S i) }) ∧
      Media.Rep t'.media S D C ∧ t'.ctts = t.ctts ∧ t'.stss = t.stss ∧ At r' S.length (i + 1) := by
  obtain ⟨hi, he⟩ := List.getElem?_eq_some_iff.mp hs
  obtain ⟨m', d, r1, r2, -, -⟩ := hR.read hf (n := i + 1) (by omega) (by omega)
  simp only [Nat.add_sub_cancel, he, startOf_timeOf] at r1
  have htime := timeOf_add hs
  have hft := hf.time
  have hfs := hf.samples
  have hg : getSample t (i + 1) = .ok (⟨⟨s.bytes, s.bytes.length, timeOf S i, u64i (s32 s.dur), d⟩,
      s32 (offs.getD i 0), (if has then 2 else 0) ||| (if sync.getD i true then 0 else 1)⟩,
      { t with media := m' }) := by
    unfold getSample
    rw [r1]
    simp only [Res.bind]
    rw [ht.sync i hi]
    simp only [ht.offset i hi, ht.has]
  have hdts := hr.dts (t := timeOf S i) (by omega)
  have hdur : u64i (s32 s.dur) % 4294967296 = s.dur := by
    rw [Media.out_duration _ (by omega)]
    split <;> omega
  refine ⟨{ t with media := m' }, advance r d, ?_, r2, rfl, rfl, ?_⟩
  · unfold next
    rw [if_neg (by rw [hr.segments, hr.nextSegment]; omega), if_neg (by rw [hr.count, hr.next]; omega), hr.next, hg]
    dsimp only
    rw [hdts]
    have hfin : finish { t with media := m' } (advance r d) (u64i (s32 s.dur)) (s32 (timeOf S i)) =
        (advance r d, .ok s.dur) := by
      unfold finish
      rw [if_neg (by intro h; exact h.1 hr.elst), hdur]
    cases has with
    | true =>
      have hc : ctsOf ((if true = true then 2 else 0) ||| (if sync.getD i true then 0 else 1)) (s32 (timeOf S i))
          (s32 (offs.getD i 0)) = .ok (s32 (timeOf S i) + s32 (offs.getD i 0)) := by
        unfold ctsOf
        rw [if_pos, if_pos (hov rfl)]
        cases sync.getD i true <;> decide
      rw [hc]
      dsimp only
      rw [hfin]
      dsimp only [unitOf]
      cases sync.getD i true <;> rfl
    | false =>
      have hc : ctsOf ((if false = true then 2 else 0) ||| (if sync.getD i true then 0 else 1)) (s32 (timeOf S i))
          (s32 (offs.getD i 0)) = .ok (s32 (timeOf S i)) := by
        unfold ctsOf
        rw [if_neg]
        cases sync.getD i true <;> decide
      rw [hc]
      dsimp only
      rw [hfin]
      dsimp only [unitOf]
      cases sync.getD i true <;> simp
  · exact ⟨hr.elst, hr.segments, hr.nextSegment, hr.mediaTime, hr.beginTime, hr.count, by
      show (r.next + 1) % 4294967296 = _; rw [hr.next]; omega⟩

/-- A call after the last sample. -/
theorem next_eof {t : Track} {r : Reader} {N i : Nat} (hr : At r N i) (h : N ≤ i) : next t r = ((t, r), .err .eof) := by
  unfold next
  rw [if_neg (by rw [hr.segments, hr.nextSegment]; omega), if_pos ⟨hr.elst, by rw [hr.count, hr.next]; omega⟩]

theorem calls_eof {t : Track} {r : Reader} {N i : Nat} (hr : At r N i) (h : N ≤ i) :
    ∀ k, calls k t r = List.replicate k (.err .eof)
  | 0 => rfl
  | k + 1 => by
    unfold calls
    rw [next_eof hr h, calls_eof hr h k]; rfl

/-- Any number of calls, from sample `i`. -/
theorem calls_from {S D C has offs sync} (hf : Media.Fits S D C.length)
    (hov : has = true → ∀ i, i < S.length → -2147483648 ≤ s32 (timeOf S i) + s32 (offs.getD i 0) ∧
      s32 (timeOf S i) + s32 (offs.getD i 0) < 2147483648) :
    ∀ (k : Nat) {t : Track} {r : Reader} {i : Nat}, Media.Rep t.media S D C → Tables t S.length has offs sync →
      At r S.length i → calls k t r = (List.range k).map fun j => resultAt S has offs sync (i + j)
  | 0, _, _, _, _, _, _ => rfl
  | k + 1, t, r, i, hR, ht, hr => by
    by_cases hi : i < S.length
    · obtain ⟨t', r', e, h1, h2, h3, h4⟩ := next_sample hR hf ht hr (List.getElem?_eq_getElem hi) (fun h => hov h i hi)
      have ih := calls_from hf hov k h1 (t := t') (has := has) (offs := offs) (sync := sync)
        ⟨by rw [h2]; exact ht.has, by rw [h2]; exact ht.offset, by rw [h3]; exact ht.sync⟩ h4
      unfold calls
      rw [e, List.range_succ_eq_map, List.map_cons, List.map_map]
      dsimp only
      rw [ih, Nat.add_zero]
      congr 1
      · unfold resultAt
        rw [Nat.add_zero, List.getElem?_eq_getElem hi]
      · apply List.map_congr_left
        intro j _
        show _ = resultAt S has offs sync (i + (j + 1))
        rw [show i + (j + 1) = i + 1 + j by omega]
    · rw [calls_eof hr (by omega)]
      have : ∀ j ∈ List.range (k + 1), resultAt S has offs sync (i + j) = .err .eof := by
        intro j _
        unfold resultAt
        rw [List.getElem?_eq_none (by omega)]
      rw [List.map_congr_left this, List.map_const', List.length_range]

theorem setup_at {t : Track} {S D C} (hR : Media.Rep t.media S D C) (ms md : Nat) :
    ∃ r, setup t [] ms md = .ok r ∧ At r S.length 0 := by
  refine ⟨_, rfl, rfl, rfl, rfl, rfl, rfl, ?_, rfl⟩
  show t.media.stsz.count = _
  rw [hR.sizes.count, List.length_map]

/-! ## The tables -/

theorem ctts_table {co : List Ctts.Add} {N : Nat} (hv : ∀ a ∈ co, a.Valid)
    (hfirst : ∀ a, co.head? = some a → a.offs ≠ none) (hl : co = [] ∨ (co.flatMap Ctts.Add.given).length = N)
    (hN : N < 2147483648) :
    ∃ c, runAll Ctts.addBatch ⟨0, none⟩ co = .ok c ∧ c.ctts.isSome = !co.isEmpty ∧
      ∀ i, i < N → Ctts.offsetOf ⟨0, c.ctts⟩ (i + 1) = (co.flatMap Ctts.Add.given).getD i 0 := by
  cases co with
  | nil => exact ⟨_, rfl, rfl, fun i _ => rfl⟩
  | cons a as =>
    have hl := hl.resolve_left (by simp)
    have ha := hv a (by simp)
    rw [List.flatMap_cons, List.length_append, Ctts.given_length ha] at hl
    obtain ⟨s, g1, g2⟩ := Ctts.first_ok ha (hfirst a rfl) (by omega)
    obtain ⟨s', k1, k2⟩ := Ctts.addAll_ok as s _ g2 (fun x hx => hv x (by simp [hx]))
      (by rw [Ctts.given_length ha]; omega)
    refine ⟨s', ?_, ?_, ?_⟩
    · simp only [runAll, g1, Res.bind]; exact k1
    · obtain ⟨t, M, ht, -⟩ := k2.table
      rw [ht]; rfl
    · intro i hi
      rw [List.flatMap_cons]
      have hlen : (a.given ++ as.flatMap Ctts.Add.given).length = N := by
        rw [List.length_append, Ctts.given_length ha]; exact hl
      rw [List.getD_eq_getElem?_getD, List.getElem?_eq_getElem (by omega), Option.getD_some]
      exact Ctts.offsetOf_ok k2 (by omega) (List.getElem?_eq_getElem _)

theorem stss_table {sy : List Stss.Add} {N : Nat} (hv : ∀ a ∈ sy, a.Valid)
    (hl : sy = [] ∨ (sy.flatMap Stss.Add.declared).length = N) (hN : N < 1073741568) :
    ∃ s, runAll Stss.addBatch ⟨0, none⟩ sy = .ok s ∧
      ∀ i, i < N → Stss.isSync ⟨0, s.stss⟩ (i + 1) = .ok ((sy.flatMap Stss.Add.declared).getD i true) := by
  rcases hl with rfl | hl
  · exact ⟨_, rfl, fun i _ => rfl⟩
  · obtain ⟨s, h1, h2⟩ := Stss.c16_sync_samples sy hv (by omega)
    refine ⟨s, h1, fun i hi => ?_⟩
    rw [List.getD_eq_getElem?_getD, List.getElem?_eq_getElem (by omega), Option.getD_some]
    exact h2 i _ (List.getElem?_eq_getElem _)

/-! ## The theorem -/

/-- **C42.** A track is built by any correct history `h` of additions (see C25), with composition offsets
added by `co` (none, or one for each sample, see C17) and sync samples declared by `sy` (none, or for each
sample, see C16). Then a reader on it, called any number of times, returns the samples in order, each once,
with their bytes, size, flags, times and durations, and then end of file for ever. Times are `s32` in this
interface, so all times must be below 2^31. -/
theorem c42_reads_every_sample_once (drefs : Nat) (h : List Media.Step) (hval : Media.AllValid drefs 0 false h)
    (hS : (Media.supplied h).length + 1 < 1073739776) (hC : h.length + 1 < 536869888)
    (hT : ((Media.supplied h).map Supplied.dur).sum < 2147483648) (hD : (Media.dataOf h).length < 4294967296)
    (co : List Ctts.Add) (hco : ∀ a ∈ co, a.Valid) (hfirst : ∀ a, co.head? = some a → a.offs ≠ none)
    (hcl : co = [] ∨ (co.flatMap Ctts.Add.given).length = (Media.supplied h).length)
    (hov : ∀ i, i < (Media.supplied h).length →
      timeOf (Media.supplied h) i + s32 ((co.flatMap Ctts.Add.given).getD i 0) < 2147483648 ∧
      -2147483648 ≤ timeOf (Media.supplied h) i + s32 ((co.flatMap Ctts.Add.given).getD i 0))
    (sy : List Stss.Add) (hsy : ∀ a ∈ sy, a.Valid)
    (hsl : sy = [] ∨ (sy.flatMap Stss.Add.declared).length = (Media.supplied h).length)
    (movieScale mediaScale k : Nat) :
    ∃ m c s r, runAll Media.apply (Media.create drefs) h = .ok m ∧ runAll Ctts.addBatch ⟨0, none⟩ co = .ok c ∧
      runAll Stss.addBatch ⟨0, none⟩ sy = .ok s ∧ setup ⟨m, c.ctts, s.stss⟩ [] movieScale mediaScale = .ok r ∧
      calls k ⟨m, c.ctts, s.stss⟩ r =
        wanted (Media.supplied h) (!co.isEmpty) (co.flatMap Ctts.Add.given) (sy.flatMap Stss.Add.declared) k := by
  obtain ⟨m, C, h1, h2, h3⟩ := Media.run_rep drefs h (Media.create drefs) [] [] [] false (Media.rep_create drefs) rfl
    (by simp) hval (by simpa using hS) (by simpa using hC)
    (by simp only [List.nil_append]; omega) (by simpa using hD)
  rw [List.nil_append, List.nil_append] at h2
  obtain ⟨c, c1, c2, c3⟩ := ctts_table hco hfirst hcl (by omega)
  obtain ⟨s, s1, s2⟩ := stss_table hsy hsl (by omega)
  obtain ⟨r, r1, r2⟩ := setup_at (t := ⟨m, c.ctts, s.stss⟩) h2 movieScale mediaScale
  have htime : ∀ i, i < (Media.supplied h).length → s32 (timeOf (Media.supplied h) i) = timeOf (Media.supplied h) i := by
    intro i hi
    have := timeOf_add (List.getElem?_eq_getElem hi)
    unfold s32
    rw [if_pos (by omega)]
  refine ⟨m, c, s, r, h1, c1, s1, r1, ?_⟩
  rw [calls_from (t := ⟨m, c.ctts, s.stss⟩) (has := !co.isEmpty) ⟨hS, h3, by omega, hD⟩ ?_ k h2 ⟨c2, c3, s2⟩ r2]
  · unfold wanted
    apply List.map_congr_left
    intro j _
    rw [Nat.zero_add]
    unfold resultAt
    by_cases hj : j < (Media.supplied h).length
    · rw [List.getElem?_eq_getElem hj]
      dsimp only
      rw [htime j hj]
      unfold unitOf
      congr 2
      cases co with
      | nil => rfl
      | cons a as => rfl
    · rw [List.getElem?_eq_none (by omega)]
  · intro _ i hi
    rw [htime i hi]
    have := hov i hi
    omega

/-- The limit on times is needed: in a longer track the samples that start at 2^31 or later are returned
with a negative decoding time, although the track itself is correct. -/
theorem c42_late_times_wrap (drefs : Nat) (h : List Media.Step) (hval : Media.AllValid drefs 0 false h)
    (hS : (Media.supplied h).length + 1 < 1073739776) (hC : h.length + 1 < 536869888)
    (hT : ((Media.supplied h).map Supplied.dur).sum < 4294967296) (hD : (Media.dataOf h).length < 4294967296)
    (movieScale mediaScale i : Nat) (s : Supplied) (hi : (Media.supplied h)[i]? = some s)
    (hlate : 2147483648 ≤ timeOf (Media.supplied h) i) :
    ∃ m r u, runAll Media.apply (Media.create drefs) h = .ok m ∧ setup ⟨m, none, none⟩ [] movieScale mediaScale = .ok r ∧
      (calls (i + 1) ⟨m, none, none⟩ r)[i]? = some (.ok u) ∧ u.bytes = s.bytes ∧
      u.dts = (timeOf (Media.supplied h) i : Int) - 4294967296 ∧ u.dts < 0 := by
  obtain ⟨m, C, h1, h2, h3⟩ := Media.run_rep drefs h (Media.create drefs) [] [] [] false (Media.rep_create drefs) rfl
    (by simp) hval (by simpa using hS) (by simpa using hC) (by simpa using hT) (by simpa using hD)
  rw [List.nil_append, List.nil_append] at h2
  obtain ⟨r, r1, r2⟩ := setup_at (t := ⟨m, none, none⟩) h2 movieScale mediaScale
  have hc := calls_from (t := ⟨m, none, none⟩) (has := false) (offs := []) (sync := []) ⟨hS, h3, by omega, hD⟩ (by simp)
    (i + 1) h2 ⟨rfl, fun _ _ => rfl, fun _ _ => rfl⟩ r2
  have ht := timeOf_add hi
  have hs32 : s32 (timeOf (Media.supplied h) i) = (timeOf (Media.supplied h) i : Int) - 4294967296 := by
    unfold s32; rw [if_neg (by omega)]
  refine ⟨m, r, { unitOf (Media.supplied h) false [] [] i s with
      cts := s32 (timeOf (Media.supplied h) i) + 0, dts := s32 (timeOf (Media.supplied h) i) }, h1, r1, ?_, rfl, hs32, ?_⟩
  · rw [hc, List.getElem?_map, List.getElem?_range (by omega)]
    show some (resultAt _ _ _ _ (0 + i)) = _
    unfold resultAt
    rw [Nat.zero_add, hi]
    rfl
  · show s32 (timeOf (Media.supplied h) i) < 0
    rw [hs32]; omega

/-! ## Cases that meet the hypotheses -/

/-- Five samples, with composition offsets 5, 0, 3, -1, 2, the first and fourth sync; seven calls. -/
example (jb : Nat → UInt8) (j : Nat → Nat) : ∃ m c s r, runAll Media.apply (Media.create 1) (Media.demo jb j) = .ok m ∧
    runAll Ctts.addBatch ⟨0, none⟩ [⟨2, some (.each [5, 0])⟩, ⟨3, some (.each [3, 4294967295, 2])⟩] = .ok c ∧
    runAll Stss.addBatch ⟨0, none⟩ [⟨5, [1, 4], j⟩] = .ok s ∧
    setup ⟨m, c.ctts, s.stss⟩ [] 600 90000 = .ok r ∧ calls 7 ⟨m, c.ctts, s.stss⟩ r =
      [.ok ⟨[1, 2], 2, 2, 5, 0, 10⟩, .ok ⟨[3, 4], 2, 3, 10, 10, 10⟩, .ok ⟨[5], 1, 3, 23, 20, 7⟩,
        .ok ⟨[], 0, 2, 26, 27, 10⟩, .ok ⟨[6, 7, 8], 3, 3, 39, 37, 9⟩, .err .eof, .err .eof] := by
  have e : Media.supplied (Media.demo jb j) =
      [⟨[1, 2], 10⟩, ⟨[3, 4], 10⟩, ⟨[5], 7⟩, ⟨[], 10⟩, ⟨[6, 7, 8], 9⟩] := rfl
  obtain ⟨m, c, s, r, h1, h2, h3, h4, h5⟩ := c42_reads_every_sample_once 1 (Media.demo jb j)
    (by simp [Media.demo, Media.AllValid, Media.Step.Valid, Media.Step.samples, Media.Step.brings, Batch.values, List.replicate])
    (by rw [e]; decide) (by simp [Media.demo]) (by rw [e]; decide) (by simp [Media.demo, Media.dataOf, Media.Step.data])
    [⟨2, some (.each [5, 0])⟩, ⟨3, some (.each [3, 4294967295, 2])⟩]
    (by simp [Ctts.Add.Valid, Batch.count, Batch.array]) (by simp) (by rw [e]; decide) (by rw [e]; decide)
    [⟨5, [1, 4], j⟩] (by simp [Stss.Add.Valid]) (by rw [e]; simp [Stss.Add.declared]) 600 90000 7
  refine ⟨m, c, s, r, h1, h2, h3, h4, ?_⟩
  rw [h5, e]
  have e2 : [(⟨5, [1, 4], j⟩ : Stss.Add)].flatMap Stss.Add.declared = [true, false, false, true, false] := by
    simp [Stss.Add.declared, List.range, List.range.loop]
  rw [e2]
  decide

/-- Two samples, the second at 2^31. -/
def late (jb : Nat → UInt8) (j : Nat → Nat) : List Media.Step :=
  [.add [⟨[1], 2147483648⟩, ⟨[2], 5⟩] (.each [2147483648, 5]) (.each [1, 1]) (some 1) jb j]

example (jb : Nat → UInt8) (j : Nat → Nat) : Media.AllValid 1 0 false (late jb j) ∧
    (Media.supplied (late jb j))[1]? = some ⟨[2], 5⟩ ∧ timeOf (Media.supplied (late jb j)) 1 = 2147483648 := by
  refine ⟨?_, rfl, rfl⟩
  simp [late, Media.AllValid, Media.Step.Valid, Batch.values]

end Verif.Reader
