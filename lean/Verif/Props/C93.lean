import Verif.Props.C66
import Verif.Model.SampleRef

/-!
# C93 — all ways to ask for a sample give the same, in any order
-/

namespace Verif.SampleRef

open Media (Supplied)
open Reader (Track Tables timeOf startOf_timeOf timeOf_add)
open ByTime (FirstAt expected)

/-! ## What the answers should be -/

/-- The flags of sample `i`: 1 if it is not a sync sample, 2 if the track has composition offsets. -/
def flagsOf (has : Bool) (sync : List Bool) (i : Nat) : Nat := (if sync.getD i true then 0 else 1) + (if has then 2 else 0)

/-- The answer is right: for numbers (from 1) and times that belong to a sample, everything in it is what was supplied. A
reference is right if at its place in the media data `D` are the bytes of the sample. -/
def Right (S : List Supplied) (D : Bytes) (has : Bool) (offs : List Nat) (sync : List Bool) : Query → Answer → Prop
  | .times n, .times x => ∃ s, S[n - 1]? = some s ∧
      x = ⟨(timeOf S (n - 1) + s32 (offs.getD (n - 1) 0)).toNat, timeOf S (n - 1), s.dur⟩
  | .ref n, .ref x => ∃ s, S[n - 1]? = some s ∧ x.size = s.bytes.length ∧ x.duration = s.dur ∧
      x.flags = flagsOf has sync (n - 1) ∧ x.offset + x.size ≤ D.length ∧ (D.drop x.offset).take x.size = s.bytes
  | .sample n, .sample x => ∃ s, S[n - 1]? = some s ∧ x.sample.bytes = s.bytes ∧ x.sample.size = s.bytes.length ∧
      x.sample.dts = timeOf S (n - 1) ∧ x.sample.duration = s.dur ∧ x.offset = s32 (offs.getD (n - 1) 0) ∧
      x.flags = flagsOf has sync (n - 1)
  | .at time, .found x => ∃ k s desc, FirstAt S time k ∧ S[k]? = some s ∧ x = expected S has offs sync k s desc
  | _, _ => False

/-- The query is for a sample that exists. -/
def Exists (S : List Supplied) : Query → Prop
  | .times n => 1 ≤ n ∧ n ≤ S.length
  | .ref n => 1 ≤ n ∧ n ≤ S.length
  | .sample n => 1 ≤ n ∧ n ≤ S.length
  | .at time => ∃ k, FirstAt S time k

/-- Each answer is right for its query. -/
def AllRight (S : List Supplied) (D : Bytes) (has : Bool) (offs : List Nat) (sync : List Bool) : List Query → List Answer → Prop
  | [], [] => True
  | q :: qs, a :: as => Right S D has offs sync q a ∧ AllRight S D has offs sync qs as
  | _, _ => False

/-! ## One query -/

theorem flags_eq (has : Bool) (sync : List Bool) (i : Nat) :
    (if has = true then 2 else 0) ||| (if sync.getD i true = true then 0 else 1) = flagsOf has sync i := by
  unfold flagsOf
  cases has <;> cases sync.getD i true <;> rfl

/-- The time table. -/
theorem time_of {m : Media.Media} {S D C} (hR : Media.Rep m S D C) (hf : Media.Fits S D C.length) {n : Nat} (h1 : 1 ≤ n)
    (h2 : n ≤ S.length) : (Stts.getTime m.stts n).1.1 = timeOf S (n - 1) ∧
      S[n - 1].dur = (Stts.getTime m.stts n).1.2 ∧ Media.Rep { m with stts := (Stts.getTime m.stts n).2 } S D C := by
  have hno := hR.noOverflow hf.samples hf.time
  have hlen : (expand m.stts.entries).length = S.length := by rw [hR.times, List.length_map]
  have hsn : n - 1 < S.length := by omega
  obtain ⟨t1, t2⟩ := (Stts.getTime_spec hno hR.cache.toOK n).2 h1 (by rw [hlen]; exact h2)
  have t3 := Stts.getTime_strict hno hR.cache h1 (by rw [hlen]; exact h2)
  rw [hR.times] at t1 t2
  rw [List.getElem?_map, List.getElem?_eq_getElem hsn, Option.map_some, Option.some.injEq] at t2
  refine ⟨by rw [t1, startOf_timeOf], t2, { hR with times := ?_, runs := ?_, cache := t3 }⟩
  · rw [Stts.getTime_entries]; exact hR.times
  · rw [Stts.getTime_entries]; exact hR.runs

theorem ask_right {t : Track} {S D C has offs sync} (hR : Media.Rep t.media S D C) (hf : Media.Fits S D C.length)
    (ht : Tables t S.length has offs sync) (hdur : ∀ s ∈ S, s.dur < 2147483648)
    (hov : ∀ i, i < S.length → 0 ≤ timeOf S i + s32 (offs.getD i 0) ∧ timeOf S i + s32 (offs.getD i 0) < 18446744073709551616)
    (hD : D ≠ []) (q : Query) (hq : Exists S q) :
    ∃ a t', ask t q = .ok (a, t') ∧ Right S D has offs sync q a ∧ Media.Rep t'.media S D C ∧ t'.ctts = t.ctts ∧ t'.stss = t.stss := by
  cases q with
  | times n =>
    obtain ⟨h1, h2⟩ := hq
    obtain ⟨t1, t2, t3⟩ := time_of hR hf h1 h2
    have hsn : n - 1 < S.length := by omega
    have hn : n - 1 + 1 = n := by omega
    have ho := ht.offset (n - 1) hsn
    rw [hn] at ho
    have hd := hdur S[n - 1] (List.getElem_mem hsn)
    have hc := hov (n - 1) hsn
    refine ⟨.times ⟨(timeOf S (n - 1) + s32 (offs.getD (n - 1) 0)).toNat, timeOf S (n - 1), S[n - 1].dur⟩,
      { t with media := { t.media with stts := (Stts.getTime t.media.stts n).2 } }, ?_,
      ⟨S[n - 1], List.getElem?_eq_getElem hsn, rfl⟩, t3, rfl, rfl⟩
    show (timesOf t n).bind _ = _
    unfold timesOf
    rw [if_neg (by omega)]
    simp only [Res.bind, t1, ho, ← t2]
    have e1 : (timeOf S (n - 1) + u64i (s32 (offs.getD (n - 1) 0))) % 18446744073709551616 =
        (timeOf S (n - 1) + s32 (offs.getD (n - 1) 0)).toNat := by
      unfold u64i; omega
    have e2 : s32 S[n - 1].dur = S[n - 1].dur := by unfold s32; rw [if_pos hd]
    rw [e1, e2]
  | ref n =>
    obtain ⟨h1, h2⟩ := hq
    obtain ⟨o, st, first, off, pos, l1, l2, l3, l4, l5, l6, l7, l8, l9⟩ := hR.locate hf h1 h2
    obtain ⟨t1, t2, t3⟩ := time_of l9 hf h1 h2
    have hsn : n - 1 < S.length := by omega
    have hn : n - 1 + 1 = n := by omega
    have hs := ht.sync (n - 1) hsn
    rw [hn] at hs
    have hd := hdur S[n - 1] (List.getElem_mem hsn)
    have hfd := hf.data
    have e1 : (off % 4294967296 + pos) % 4294967296 = off + pos := by omega
    have e2 : u32i (s32 S[n - 1].dur) = S[n - 1].dur := by unfold s32 u32i; rw [if_pos hd]; omega
    refine ⟨.ref ⟨off + pos, S[n - 1].bytes.length, S[n - 1].dur, flagsOf has sync (n - 1), o.desc⟩,
      { t with media := { t.media with stts := (Stts.getTime t.media.stts n).2, stsc := st } }, ?_,
      ⟨S[n - 1], List.getElem?_eq_getElem hsn, rfl, rfl, rfl, l7, l8⟩, t3, rfl, rfl⟩
    show (reference t n).bind _ = _
    unfold reference
    rw [if_neg (by omega)]
    simp only [l1, l2, l3, l4, Res.bind]
    rw [if_neg (by omega), hs]
    simp only [ht.has, flags_eq, e1]
    rw [← t2, e2]
  | sample n =>
    obtain ⟨h1, h2⟩ := hq
    obtain ⟨m', d, r1, r2, -, -⟩ := hR.read hf h1 h2
    have hsn : n - 1 < S.length := by omega
    have hn : n - 1 + 1 = n := by omega
    have hs := ht.sync (n - 1) hsn
    have ho := ht.offset (n - 1) hsn
    rw [hn] at hs ho
    have hd := hdur S[n - 1] (List.getElem_mem hsn)
    refine ⟨.sample ⟨⟨S[n - 1].bytes, S[n - 1].bytes.length, timeOf S (n - 1), S[n - 1].dur, d⟩, s32 (offs.getD (n - 1) 0),
      flagsOf has sync (n - 1)⟩, { t with media := m' }, ?_,
      ⟨S[n - 1], List.getElem?_eq_getElem hsn, rfl, rfl, rfl, rfl, rfl, rfl⟩, r2, rfl, rfl⟩
    show (Reader.getSample t n).bind _ = _
    unfold Reader.getSample
    rw [r1]
    simp only [Res.bind, hs, ho, ht.has, flags_eq, startOf_timeOf]
    rw [Media.out_duration _ (by omega), if_pos hd]
  | «at» time =>
    obtain ⟨k, hk⟩ := hq
    obtain ⟨s, hs, -⟩ := hk.1
    have hkl := (List.getElem?_eq_some_iff.mp hs).1
    obtain ⟨desc, st, g, g'⟩ := ByTime.getAt_first hR hf ht hk hs (hdur s (List.mem_of_getElem? hs)) (hov k hkl) (Or.inr hD)
    refine ⟨.found (expected S has offs sync k s desc), { t with media := { t.media with stsc := st } }, ?_,
      ⟨k, s, desc, hk, hs, rfl⟩, g', rfl, rfl⟩
    show (ByTime.getAt t time).bind _ = _
    rw [g]
    rfl

theorem askAll_right {S D C has offs sync} (hf : Media.Fits S D C.length) (hdur : ∀ s ∈ S, s.dur < 2147483648)
    (hov : ∀ i, i < S.length → 0 ≤ timeOf S i + s32 (offs.getD i 0) ∧ timeOf S i + s32 (offs.getD i 0) < 18446744073709551616)
    (hD : D ≠ []) : ∀ (qs : List Query) (t : Track), (∀ q ∈ qs, Exists S q) → Media.Rep t.media S D C →
    Tables t S.length has offs sync → ∃ as t', askAll t qs = .ok (as, t') ∧ AllRight S D has offs sync qs as
  | [], t, _, _, _ => ⟨[], t, rfl, trivial⟩
  | q :: qs, t, hq, hR, ht => by
    obtain ⟨a, t', h1, h2, h3, h4, h5⟩ := ask_right hR hf ht hdur hov hD q (hq q (by simp))
    have ht' : Tables t' S.length has offs sync := ⟨by rw [h4]; exact ht.has, by rw [h4]; exact ht.offset, by rw [h5]; exact ht.sync⟩
    obtain ⟨as, t'', g1, g2⟩ := askAll_right hf hdur hov hD qs t' (fun q h => hq q (by simp [h])) h3 ht'
    refine ⟨a :: as, t'', ?_, h2, g2⟩
    unfold askAll
    rw [h1]
    simp only [Res.bind, g1]

/-! ## Theorems -/

/-- **C93.** A track is built by any correct history `h` of additions and reads (see C25), with composition offsets and sync
samples as in C66. Then any sequence of queries for samples that exist — the times of a sample, where it is, the sample by
number, the sample by time — succeeds, and every answer is the right one, whatever was asked before. -/
theorem c93_queries (drefs : Nat) (h : List Media.Step) (hval : Media.AllValid drefs 0 false h)
    (hS : (Media.supplied h).length + 1 < 1073739776) (hC : h.length + 1 < 536869888)
    (hT : ((Media.supplied h).map Supplied.dur).sum < 4294967296) (hD : (Media.dataOf h).length < 4294967296)
    (hdur : ∀ s ∈ Media.supplied h, s.dur < 2147483648)
    (co : List Ctts.Add) (hco : ∀ a ∈ co, a.Valid) (hfirst : ∀ a, co.head? = some a → a.offs ≠ none)
    (hcl : co = [] ∨ (co.flatMap Ctts.Add.given).length = (Media.supplied h).length)
    (hov : ∀ i, i < (Media.supplied h).length →
      0 ≤ timeOf (Media.supplied h) i + s32 ((co.flatMap Ctts.Add.given).getD i 0) ∧
      timeOf (Media.supplied h) i + s32 ((co.flatMap Ctts.Add.given).getD i 0) < 18446744073709551616)
    (sy : List Stss.Add) (hsy : ∀ a ∈ sy, a.Valid)
    (hsl : sy = [] ∨ (sy.flatMap Stss.Add.declared).length = (Media.supplied h).length)
    (hdata : Media.dataOf h ≠ []) :
    ∃ m c s, runAll Media.apply (Media.create drefs) h = .ok m ∧ runAll Ctts.addBatch ⟨0, none⟩ co = .ok c ∧
      runAll Stss.addBatch ⟨0, none⟩ sy = .ok s ∧
      ∀ qs : List Query, (∀ q ∈ qs, Exists (Media.supplied h) q) → ∃ as t', askAll ⟨m, c.ctts, s.stss⟩ qs = .ok (as, t') ∧
        AllRight (Media.supplied h) (Media.dataOf h) (!co.isEmpty) (co.flatMap Ctts.Add.given) (sy.flatMap Stss.Add.declared) qs as := by
  obtain ⟨m, c, s, h1, h2, h3, ⟨C, h4, h5⟩, h6⟩ := ByTime.built drefs h hval hS hC hT hD co hco hfirst hcl sy hsy hsl
  exact ⟨m, c, s, h1, h2, h3, fun qs hq => askAll_right h5 hdur hov hdata qs _ hq h4 h6⟩

/-- If no sample has duration zero, the time of a sample leads back to it: the sample found at the decoding time of sample
`k` is `k`. -/
theorem c93_back (S : List Supplied) (hpos : ∀ s ∈ S, 0 < s.dur) (k : Nat) (hk : k < S.length) : FirstAt S (timeOf S k) k := by
  refine ⟨⟨S[k], List.getElem?_eq_getElem hk, Or.inl rfl⟩, ?_⟩
  rintro j hj ⟨s, hs, h⟩
  have h0 := hpos s (List.mem_of_getElem? hs)
  have h1 := ByTime.timeOf_succ hs
  have h2 := ByTime.timeOf_mono S (show j + 1 ≤ k by omega)
  omega

/-- The number 0 is refused. -/
theorem c93_zero (t : Track) : timesOf t 0 = .err .badParam ∧ reference t 0 = .err .badParam := ⟨rfl, rfl⟩

theorem scan_past (n : Nat) : ∀ (rest : List (Nat × Nat)) (P : Nat) (s : Stts.Scan),
    P + (expand rest).length + 1 < 4294967296 → s.sample = 1 + P → P + (expand rest).length < n →
    (Stts.scan n rest s).cts = s.cts ∧ (Stts.scan n rest s).dur = s.dur
  | [], _, _, _, _, _ => ⟨rfl, rfl⟩
  | (c, d) :: es, P, s, h1, h2, h3 => by
    simp only [expand_cons, List.length_append, List.length_replicate] at h1 h3
    unfold Stts.scan
    have e1 : (s.sample + c) % 4294967296 = 1 + P + c := by rw [h2, Nat.mod_eq_of_lt (by omega)]
    rw [e1, if_neg (by omega)]
    exact scan_past n es (P + c) _ (by omega) (by simp; omega) (by omega)

/-- A number after the last sample: `MP4GetIndMediaSampleReference` fails, but `MP4SampleNumToMediaTime` succeeds, with a
decoding time of 2^64 - 1 and the duration 0. -/
theorem c93_past_end {t : Track} {S D C} (hR : Media.Rep t.media S D C) (hf : Media.Fits S D C.length) (n : Nat) (hn : S.length < n) :
    (∀ r, reference t n ≠ .ok r) ∧ ∃ x t', timesOf t n = .ok (x, t') ∧ x.dts = 2 ^ 64 - 1 ∧ x.duration = 0 := by
  constructor
  · intro r hr
    unfold reference at hr
    rw [if_neg (by omega)] at hr
    have hcount : t.media.stsz.count = S.length := by
      have := hR.sizes.1
      rw [List.length_map] at this
      exact this
    have hsz : ∀ first, Stsz.getSampleSizeAndOffset t.media.stsz n first = .err .badParam := by
      intro first
      unfold Stsz.getSampleSizeAndOffset
      rw [if_pos (Or.inl (by omega))]
    simp only [hsz] at hr
    cases hl : Stsc.lookup t.media.stsc n with
    | ok a =>
      rw [hl] at hr
      simp only [Res.bind] at hr
      split at hr <;> cases hr
    | err e => rw [hl] at hr; cases hr
    | ub => rw [hl] at hr; cases hr
  · have hno := hR.noOverflow hf.samples hf.time
    have hlen : (expand t.media.stts.entries).length = S.length := by rw [hR.times, List.length_map]
    have hfs := hf.samples
    have key : (Stts.getTime t.media.stts n).1 = (18446744073709551615, 0) := by
      unfold Stts.getTime
      have hsplit : ∀ k, (expand (t.media.stts.entries.take k)).length + (expand (t.media.stts.entries.drop k)).length = S.length := by
        intro k
        rw [← List.length_append, ← expand_append, List.take_append_drop, hlen]
      by_cases hc : t.media.stts.found ∧ t.media.stts.foundSample < n
      · obtain ⟨c1, c2, c3⟩ := hR.cache hc.1
        simp only [if_pos hc]
        have := hsplit t.media.stts.foundNum
        obtain ⟨g1, g2⟩ := scan_past n (t.media.stts.entries.drop t.media.stts.foundNum) _
          ⟨18446744073709551615, 0, t.media.stts.foundTime, t.media.stts.foundSample, t.media.stts.foundNum⟩
          (by omega) c3 (by omega)
        rw [g1, g2]
      · simp only [if_neg hc]
        obtain ⟨g1, g2⟩ := scan_past n (t.media.stts.entries.drop 0) 0 ⟨18446744073709551615, 0, 0, 1, 0⟩
          (by rw [List.drop_zero, hlen]; omega) rfl (by rw [List.drop_zero, hlen]; omega)
        rw [g1, g2]
    refine ⟨_, _, by unfold timesOf; rw [if_neg (by omega)], ?_, ?_⟩
    · show (Stts.getTime t.media.stts n).1.1 = _
      rw [key]
    · show s32 (Stts.getTime t.media.stts n).1.2 = _
      rw [key]
      rfl

/-- A track with one sample of 5 bytes, in a chunk at `off`. -/
def oneSample (off : Nat) : Track :=
  ⟨⟨Stts.ofEntries [(1, 10)], ⟨5, 1, 32, 0, none⟩, Stsc.ofEntries [⟨1, 1, 1⟩], ⟨1, 8, [off]⟩, [1], 1, Mdat.create⟩, none, none⟩

/-- The offset of a reference has 32 bits: it is cut, with no error. -/
theorem c93_offset_cut (off : Nat) : ∃ r t', reference (oneSample off) 1 = .ok (r, t') ∧ r.offset = off % 2 ^ 32 ∧ r.size = 5 := by
  have h : ∃ st, Stsc.lookup (Stsc.ofEntries [⟨1, 1, 1⟩]) 1 = .ok (⟨1, 1, some 1⟩, st) := by
    have key : (match Stsc.lookup (Stsc.ofEntries [⟨1, 1, 1⟩]) 1 with
      | .ok (o, _) => decide (o = ⟨1, 1, some 1⟩)
      | _ => false) = true := by decide
    split at key
    · rename_i o st e
      exact ⟨st, by rw [e, of_decide_eq_true key]⟩
    · cases key
  obtain ⟨st, h⟩ := h
  refine ⟨_, _, by
    unfold reference
    rw [if_neg (by omega)]
    simp only [oneSample, h, Res.bind]
    rfl, ?_, rfl⟩
  show (off % 4294967296 + 0) % 4294967296 = _
  omega

/-- The history of C25, with composition offsets for its five samples and two sync samples. -/
example (jb : Nat → UInt8) (j : Nat → Nat) : ∃ m c s, runAll Media.apply (Media.create 1) (Media.demo jb j) = .ok m ∧
    runAll Ctts.addBatch ⟨0, none⟩ [⟨2, some (.each [5, 0])⟩, ⟨3, some (.each [3, 4294967295, 2])⟩] = .ok c ∧
    runAll Stss.addBatch ⟨0, none⟩ [⟨5, [1, 4], j⟩] = .ok s ∧
    ∃ x y z t', askAll ⟨m, c.ctts, s.stss⟩ [.ref 5, .times 4, .at 29] = .ok ([.ref x, .times y, .found z], t') ∧
      x.size = 3 ∧ x.duration = 9 ∧ x.flags = 3 ∧ y = ⟨26, 27, 10⟩ ∧ z.dts = 27 ∧ z.cts = 26 := by
  have e : Media.supplied (Media.demo jb j) =
      [⟨[1, 2], 10⟩, ⟨[3, 4], 10⟩, ⟨[5], 7⟩, ⟨[], 10⟩, ⟨[6, 7, 8], 9⟩] := rfl
  obtain ⟨m, c, s, h1, h2, h3, h4⟩ := c93_queries 1 (Media.demo jb j)
    (by simp [Media.demo, Media.AllValid, Media.Step.Valid, Media.Step.samples, Media.Step.brings, Batch.values, List.replicate])
    (by rw [e]; decide) (by simp [Media.demo]) (by rw [e]; decide) (by simp [Media.demo, Media.dataOf, Media.Step.data])
    (by rw [e]; decide)
    [⟨2, some (.each [5, 0])⟩, ⟨3, some (.each [3, 4294967295, 2])⟩]
    (by simp [Ctts.Add.Valid, Batch.count, Batch.array]) (by simp) (by rw [e]; decide) (by rw [e]; decide)
    [⟨5, [1, 4], j⟩] (by simp [Stss.Add.Valid]) (by rw [e]; simp [Stss.Add.declared])
    (by simp [Media.demo, Media.dataOf, Media.Step.data])
  rw [e] at h4
  have e2 : [(⟨5, [1, 4], j⟩ : Stss.Add)].flatMap Stss.Add.declared = [true, false, false, true, false] := by
    simp [Stss.Add.declared, List.range, List.range.loop]
  rw [e2] at h4
  have h29 : FirstAt [⟨[1, 2], 10⟩, ⟨[3, 4], 10⟩, ⟨[5], 7⟩, ⟨[], 10⟩, ⟨[6, 7, 8], 9⟩] 29 3 := by decide
  obtain ⟨as, t', g1, g2⟩ := h4 [.ref 5, .times 4, .at 29] (by
    intro q hq
    simp only [List.mem_cons, List.not_mem_nil, or_false] at hq
    rcases hq with rfl | rfl | rfl
    · exact ⟨by decide, by decide⟩
    · exact ⟨by decide, by decide⟩
    · exact ⟨3, h29⟩)
  refine ⟨m, c, s, h1, h2, h3, ?_⟩
  match as, g1, g2 with
  | [.ref x, .times y, .found z], g1, ⟨⟨s1, a1, a2, a3, a4, _⟩, ⟨s2, b1, b2⟩, ⟨k, s3, d, c1, c2, c3⟩, _⟩ =>
    have hk := ByTime.FirstAt.unique c1 h29
    subst hk
    simp at a1 b1 c2
    subst a1 b1 c2
    refine ⟨x, y, z, t', g1, a2, a3, a4, ?_, ?_, ?_⟩
    · rw [b2]; decide
    · rw [c3]; rfl
    · rw [c3]; rfl

end Verif.SampleRef
