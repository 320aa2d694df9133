import Verif.Model.Elst
import Verif.Spec.Batch
import Verif.Spec.Rle
import Verif.Lemmas.Box

/-!
# C18 — the edit list survives being written and parsed
# C45 — edit segments follow each other in movie time
-/

namespace Verif.Elst

/-- A segment that the given version of the box can hold: rates are whole 16-bit numbers, and an
edit is empty exactly if its media time is negative. -/
def Fits (version : Nat) (e : Entry) : Prop :=
  e.rate < 65536 ∧ (e.empty = true ↔ e.mediaTime < 0) ∧
  if version = 1 then e.duration < 2 ^ 64 ∧ -2 ^ 63 ≤ e.mediaTime ∧ e.mediaTime < 2 ^ 63
  else e.duration < 2 ^ 32 ∧ -2 ^ 31 ≤ e.mediaTime ∧ e.mediaTime < 2 ^ 31

/-- An `n`-byte two's complement integer. -/
def beSigned (n : Nat) (x : Int) : Bytes := be n (if x < 0 then (x + 256 ^ n).toNat else x.toNat)

/-- The layout in the standard: durations and media times of 32 bits in version 0 and of 64 bits in
version 1; the rate is a 16.16 fixed-point number. -/
def layout (version flags : Nat) (es : List Entry) : Bytes :=
  fullBox (fcc 'e' 'l' 's' 't') version flags (be 4 es.length ++ es.flatMap fun e =>
    (if version = 1 then be 8 e.duration ++ beSigned 8 e.mediaTime
     else be 4 e.duration ++ beSigned 4 e.mediaTime) ++ (be 2 e.rate ++ be 2 0))

theorem rate_bytes {r : Nat} (h : r < 65536) : be 4 ((r <<< 16) % 4294967296) = be 2 r ++ be 2 0 := by
  have e : r <<< 16 = r * 65536 := by rw [Nat.shiftLeft_eq]
  rw [e, Nat.mod_eq_of_lt (by omega)]
  simp only [be2, be4, List.cons_append, List.nil_append]
  congr 1
  · congr 1; omega
  congr 1
  · congr 1; omega
  congr 1
  · apply UInt8.toNat_inj.mp; simp; omega
  congr 1
  · apply UInt8.toNat_inj.mp; simp

theorem signed_bytes32 {x : Int} (h1 : -2 ^ 31 ≤ x) (h2 : x < 2 ^ 31) : be 4 (u32i x) = beSigned 4 x := by
  unfold beSigned u32i
  congr 1
  split <;> omega

theorem signed_bytes64 {x : Int} (h1 : -2 ^ 63 ≤ x) (h2 : x < 2 ^ 63) : be 8 (u64i x) = beSigned 8 x := by
  unfold beSigned u64i
  congr 1
  split <;> omega

theorem c18_elst_round_trip (version flags : Nat) (es : List Entry) (hv : version < 256)
    (hf : flags < 16777216) (hn : es.length < 214748363) (hfit : ∀ e ∈ es, Fits version e) :
    BoxRoundTrip (calcSize version es) (serialize version flags es) parseBody ((version, flags), es)
      (layout version flags es) := by
  have hrate : ∀ e ∈ es, rateOf ((e.rate <<< 16) % 4294967296) = e.rate := by
    intro e he
    have := (hfit e he).1
    unfold rateOf
    rw [Nat.shiftLeft_eq, Nat.shiftRight_eq_div_pow, if_pos (by omega)]
    omega
  by_cases h1 : version = 1
  · subst h1
    have hlen : (es.flatMap fun e => (if (1 : Nat) = 1 then be 8 e.duration ++ beSigned 8 e.mediaTime
        else be 4 e.duration ++ beSigned 4 e.mediaTime) ++ (be 2 e.rate ++ be 2 0)).length = 20 * es.length :=
      flatMap_length_const es (by simp [beSigned])
    have hsz : calcSize 1 es = 16 + 20 * es.length := by unfold calcSize; rw [if_pos rfl]; omega
    refine BoxRoundTrip.ofFull ?_ ?_ (by rw [List.length_append, be_length, hlen]; omega)
      (by omega) (by decide) (by decide)
    · refine (emits_put32 _).then (Emits.thenAssert (Emits.each es fun e he => ?_))
      obtain ⟨g1, _, g3⟩ := hfit e he
      rw [if_pos rfl] at g3
      unfold putEntry
      rw [if_pos rfl, if_pos rfl, ← rate_bytes g1, ← signed_bytes64 g3.2.1 g3.2.2]
      exact ((emits_put64 _).seq (emits_put64 _)).seq (emits_put32 _)
    · apply Parses.at
      refine (parses_versionFlags hv hf).bind ((parses_get32' (by omega)).bind (Parses.bind_nil ?_ (parses_pure _)))
      refine parses_repeat es _ (fun e he => ?_) rfl
      obtain ⟨g1, g2, g3⟩ := hfit e he
      rw [if_pos rfl] at g3
      unfold getEntry
      rw [if_pos rfl, if_pos rfl, ← rate_bytes g1, ← signed_bytes64 g3.2.1 g3.2.2, List.append_assoc]
      refine (parses_get64' g3.1).bind ((parses_get64' (u64i_lt _)).bind ((parses_get32' (by omega)).bind_nil ?_))
      rw [hrate e he, s64_u64i g3.2.1 g3.2.2]
      have : decide (e.mediaTime < 0) = e.empty := by
        cases he : e.empty <;> simp [he] at g2 ⊢ <;> omega
      rw [this]
      exact parses_pure _
  · have hlen : (es.flatMap fun e => (if version = 1 then be 8 e.duration ++ beSigned 8 e.mediaTime
        else be 4 e.duration ++ beSigned 4 e.mediaTime) ++ (be 2 e.rate ++ be 2 0)).length = 12 * es.length :=
      flatMap_length_const es (by simp [beSigned, h1])
    have hsz : calcSize version es = 16 + 12 * es.length := by unfold calcSize; rw [if_neg h1]; omega
    refine BoxRoundTrip.ofFull ?_ ?_ (by simp only [List.length_append, be_length, hlen]; omega)
      (by omega) (by decide) (by decide)
    · refine (emits_put32 _).then (Emits.thenAssert (Emits.each es fun e he => ?_))
      obtain ⟨g1, _, g3⟩ := hfit e he
      rw [if_neg h1] at g3
      unfold putEntry
      rw [if_neg h1, if_neg h1, ← rate_bytes g1, ← signed_bytes32 g3.2.1 g3.2.2, Nat.mod_eq_of_lt g3.1]
      exact ((emits_put32 _).seq (emits_put32 _)).seq (emits_put32 _)
    · apply Parses.at
      refine (parses_versionFlags hv hf).bind ((parses_get32' (by omega)).bind (Parses.bind_nil ?_ (parses_pure _)))
      refine parses_repeat es _ (fun e he => ?_) rfl
      obtain ⟨g1, g2, g3⟩ := hfit e he
      rw [if_neg h1] at g3
      unfold getEntry
      dsimp only
      rw [if_neg h1, if_neg h1, ← rate_bytes g1, ← signed_bytes32 g3.2.1 g3.2.2, List.append_assoc]
      refine (parses_get32' g3.1).bind ((parses_get32' (u32i_lt _)).bind ((parses_get32' (by omega)).bind_nil ?_))
      rw [hrate e he, s32_u32i g3.2.1 g3.2.2]
      have : decide (e.mediaTime < 0) = e.empty := by
        cases he : e.empty <;> simp [he] at g2 ⊢ <;> omega
      rw [this]
      exact parses_pure _

/-- An empty edit and a normal one, in version 0. -/
example : runW (calcSize 0 [⟨600, -1, 1, true⟩, ⟨90, 5, 1, false⟩])
    (serialize 0 0 [⟨600, -1, 1, true⟩, ⟨90, 5, 1, false⟩]) =
    .ok [0, 0, 0, 40, 0x65, 0x6c, 0x73, 0x74, 0, 0, 0, 0, 0, 0, 0, 2,
      0, 0, 2, 88, 255, 255, 255, 255, 0, 1, 0, 0,
      0, 0, 0, 90, 0, 0, 0, 5, 0, 1, 0, 0] := by decide

example : ∀ e ∈ [(⟨600, -1, 1, true⟩ : Entry), ⟨90, 5, 1, false⟩], Fits 0 e := by
  simp [Fits]

/-! ### Edits made through the library -/

/-- The operations that build an edit list. -/
inductive Op
  | setOffset (start trackDuration : Nat)
  | insert (start mediaStart : Int) (duration rate : Nat)

def step (es : List Entry) : Op → Res (List Entry)
  | .setOffset s d => .ok (setTrackOffset es s d)
  | .insert s m d r => insertSegment es s m d r

/-- The arguments an operation may have: of their C types, media time not negative. -/
def Op.Valid : Op → Prop
  | .setOffset s d => s < 2 ^ 32 ∧ d < 2 ^ 32
  | .insert s m d r => s < 2 ^ 31 ∧ 0 ≤ m ∧ m < 2 ^ 31 ∧ d < 2 ^ 32 ∧ r < 65536

/-- Every edit list built by such operations, in any number and order, can be written in version 0. -/
theorem c18_built_lists_fit (ops : List Op) (hv : ∀ o ∈ ops, o.Valid) (es es' : List Entry)
    (hes : ∀ e ∈ es, Fits 0 e) (hrun : runAll step es ops = .ok es') : ∀ e ∈ es', Fits 0 e := by
  induction ops generalizing es with
  | nil =>
    simp only [runAll, Res.ok.injEq] at hrun
    subst hrun
    exact hes
  | cons o ops ih =>
    simp only [runAll] at hrun
    have hvo := hv o (by simp)
    have fits_empty : ∀ s, s < 2 ^ 32 → Fits 0 ⟨s, -1, 1, true⟩ := by
      intro s hs; simp [Fits]; omega
    cases o with
    | setOffset s d =>
      refine ih (fun x hx => hv x (by simp [hx])) (setTrackOffset es s d) ?_ hrun
      intro e he
      unfold setTrackOffset at he
      cases es with
      | nil =>
        simp at he
        rcases he with rfl | rfl
        · exact fits_empty s hvo.1
        · simp [Fits]; exact hvo.2
      | cons a rest =>
        by_cases ha : a.empty = true
        · simp only [if_pos ha, List.mem_cons] at he
          rcases he with rfl | he
          · have := hes a (by simp)
            simp only [Fits] at this ⊢
            exact ⟨this.1, this.2.1, hvo.1, this.2.2.2⟩
          · exact hes e (by simp [he])
        · simp only [if_neg ha, List.mem_cons] at he
          rcases he with rfl | he
          · exact fits_empty s hvo.1
          · exact hes e (by simpa using he)
    | insert s m d r =>
      obtain ⟨v1, v2, v3, v4, v5⟩ := hvo
      have hnew : Fits 0 ⟨d, m, r, false⟩ := by
        simp [Fits]; omega
      cases hstep : step es (.insert s m d r) with
      | err x => rw [hstep] at hrun; simp [Res.bind] at hrun
      | ub => rw [hstep] at hrun; simp [Res.bind] at hrun
      | ok es1 =>
        rw [hstep] at hrun
        refine ih (fun x hx => hv x (by simp [hx])) es1 ?_ hrun
        simp only [step, insertSegment] at hstep
        by_cases h0 : es = []
        · rw [if_pos h0] at hstep
          simp only [Res.ok.injEq] at hstep
          subst hstep
          intro e he
          rw [List.mem_append] at he
          rcases he with he | he
          · by_cases hs : s > 0
            · rw [if_pos hs] at he
              simp at he; subst he
              exact fits_empty _ (by unfold startDuration; omega)
            · rw [if_neg hs] at he; simp at he
          · simp at he; subst he; exact hnew
        · rw [if_neg h0] at hstep
          by_cases hs : s = -1
          · rw [if_pos hs] at hstep
            simp only [Res.ok.injEq] at hstep
            subst hstep
            intro e he
            rw [List.mem_append] at he
            rcases he with he | he
            · exact hes e he
            · simp at he; subst he; exact hnew
          · rw [if_neg hs] at hstep; simp at hstep

/-- An empty edit appended with `insertSegment` (media time -1) is not marked as empty, and becomes
so by being written and parsed. -/
theorem c18_inserted_empty_edit :
    insertSegment [⟨90, 5, 1, false⟩] (-1) (-1) 600 1 = .ok [⟨90, 5, 1, false⟩, ⟨600, -1, 1, false⟩] ∧
    runW 40 (serialize 0 0 [⟨90, 5, 1, false⟩, ⟨600, -1, 1, false⟩]) =
      runW 40 (serialize 0 0 [⟨90, 5, 1, false⟩, ⟨600, -1, 1, true⟩]) := by
  decide

/-- The library creates edit lists in version 0 and never changes that: a duration of 2^32 is
written as 0. -/
theorem c18_long_duration_lost :
    runW 28 (serialize 0 0 [⟨4294967296, 0, 1, false⟩]) = runW 28 (serialize 0 0 [⟨0, 0, 1, false⟩]) := by
  decide

/-- An entry of a file, in either version, whatever its rate field `r` holds: the rate is the integral part of the 16.16
number, apart from the field 1 of old files, which stands for the rate 1. -/
theorem c18_rate_read (version d r : Nat) (m : Int) (hr : r < 2 ^ 32)
    (hv : if version = 1 then d < 2 ^ 64 ∧ -2 ^ 63 ≤ m ∧ m < 2 ^ 63 else d < 2 ^ 32 ∧ -2 ^ 31 ≤ m ∧ m < 2 ^ 31) :
    Parses (getEntry version)
      ((if version = 1 then be 8 d ++ beSigned 8 m else be 4 d ++ beSigned 4 m) ++ be 4 r)
      ⟨d, m, if r = 1 then 1 else r / 65536, decide (m < 0)⟩ := by
  have e : rateOf r = if r = 1 then 1 else r / 65536 := by
    unfold rateOf
    rw [Nat.shiftRight_eq_div_pow]
    by_cases h : r = 1
    · rw [if_neg (by omega), if_pos h, h]
    · rw [if_pos h, if_neg h]
  by_cases h1 : version = 1
  · rw [if_pos h1] at hv ⊢
    unfold getEntry
    rw [if_pos h1, ← signed_bytes64 hv.2.1 hv.2.2, List.append_assoc]
    refine (parses_get64' hv.1).bind ((parses_get64' (u64i_lt _)).bind ((parses_get32' (by omega)).bind_nil ?_))
    rw [e, s64_u64i hv.2.1 hv.2.2]
    exact parses_pure _
  · rw [if_neg h1] at hv ⊢
    unfold getEntry
    rw [if_neg h1, ← signed_bytes32 hv.2.1 hv.2.2, List.append_assoc]
    refine (parses_get32' hv.1).bind ((parses_get32' (u32i_lt _)).bind ((parses_get32' (by omega)).bind_nil ?_))
    rw [e, s32_u32i hv.2.1 hv.2.2]
    exact parses_pure _

/-- Rate 1 in an old file, rate 3.5. -/
example : getEntry 0 ⟨[0, 0, 0, 9, 255, 255, 255, 255, 0, 0, 0, 1], 0⟩ = .ok (⟨9, -1, 1, true⟩, ⟨[], 12⟩) ∧
    getEntry 0 ⟨[0, 0, 0, 9, 0, 0, 0, 7, 0, 3, 128, 0], 0⟩ = .ok (⟨9, 7, 3, false⟩, ⟨[], 12⟩) := ⟨rfl, rfl⟩

/-! ### C45 -/

/-- Movie time at which segment `k` (from 0) starts. -/
def segmentStart (es : List Entry) (k : Nat) : Nat := startOf (es.map Entry.duration) k

theorem segLoop_past (n : Nat) : ∀ (es : List Entry) (i t : Nat) (out : Option (Nat × Int × Nat)), n - 1 < i →
    segLoop n es i t out = out := by
  intro es
  induction es with
  | nil => intros; rfl
  | cons e es ih =>
    intro i t out h
    unfold segLoop
    rw [if_neg (by omega), ih _ _ _ (by omega)]

theorem segLoop_ok (n : Nat) : ∀ (es : List Entry) (i t k : Nat) (e : Entry) (out : Option (Nat × Int × Nat)),
    i + k = n - 1 → es[k]? = some e → t + segmentStart es k < 18446744073709551616 →
    segLoop n es i t out = some (t + segmentStart es k, (if e.empty then -1 else e.mediaTime), e.duration) := by
  intro es
  induction es with
  | nil => intro i t k e out _ he; simp at he
  | cons a es ih =>
    intro i t k e out hk he ht
    unfold segLoop
    cases k with
    | zero =>
      simp at he; subst he
      rw [if_pos (by omega), segLoop_past n es _ _ _ (by omega)]
      simp [segmentStart, startOf]
    | succ k =>
      simp only [List.getElem?_cons_succ] at he
      have hs : segmentStart (a :: es) (k + 1) = a.duration + segmentStart es k := by
        simp [segmentStart, startOf]
      rw [hs] at ht ⊢
      have hm : (t + a.duration) % 18446744073709551616 = t + a.duration := by omega
      rw [if_neg (by omega), hm, ih (i + 1) (t + a.duration) k e out (by omega) he (by omega)]
      rw [Nat.add_assoc]

/-- Segment `n` starts where the segments before it end, for the media time and with the duration
of its entry (media time -1 if empty); other segment numbers are refused. -/
theorem c45_segment_times (es : List Entry) (hsum : (es.map Entry.duration).sum < 18446744073709551616) :
    (∀ (n : Nat) (e : Entry), es[n]? = some e → getIndSegmentTime es (n + 1) =
      .ok (segmentStart es n, (if e.empty then -1 else e.mediaTime), e.duration)) ∧
    (∀ n, n = 0 ∨ es.length < n → getIndSegmentTime es n = .err .badParam) := by
  refine ⟨?_, ?_⟩
  · intro n e he
    have hlt := (List.getElem?_eq_some_iff.mp he).1
    have hle : segmentStart es n ≤ (es.map Entry.duration).sum := by
      unfold segmentStart startOf
      conv => rhs; rw [← List.take_append_drop n (es.map Entry.duration), List.sum_append]
      omega
    unfold getIndSegmentTime
    rw [if_neg (by omega), segLoop_ok (n + 1) es 0 0 n e none (by omega) he (by omega)]
    simp
  · intro n hn
    unfold getIndSegmentTime
    rw [if_pos (by omega)]

/-- The effective duration is the sum of the segment durations. -/
theorem c45_effective_duration (es : List Entry) (hsum : (es.map Entry.duration).sum < 4294967296) :
    effectiveDuration es = (es.map Entry.duration).sum := by
  have : ∀ (es : List Entry) (d : Nat), d + (es.map Entry.duration).sum < 4294967296 →
      es.foldl (fun d e => (d + e.duration % 4294967296) % 4294967296) d = d + (es.map Entry.duration).sum := by
    intro es
    induction es with
    | nil => intro d _; simp
    | cons e es ih =>
      intro d h
      simp only [List.map_cons, List.sum_cons] at h ⊢
      rw [List.foldl_cons, ih _ (by omega)]
      omega
  have := this es 0 (by omega)
  unfold effectiveDuration
  rw [this]; omega

example : getIndSegmentTime [⟨600, -1, 1, true⟩, ⟨90, 5, 1, false⟩, ⟨10, 0, 1, false⟩] 3 = .ok (690, 0, 10) := by decide

/-- The segments after the initial empty edit, if there is one. -/
def afterOffset : List Entry → List Entry
  | [] => []
  | e :: es => if e.empty then es else e :: es

/-- Setting a track offset puts an empty edit of that duration at the start, in place of one that
is already there, and keeps all other segments; without any segments, one of the whole track is
added. `getTrackOffset` reports it. -/
theorem c45_track_offset (es : List Entry) (start trackDuration : Nat) (hs : start < 4294967296) :
    getTrackOffset (setTrackOffset es start trackDuration) = start ∧
    ∃ e, e.empty = true ∧ e.duration = start ∧ setTrackOffset es start trackDuration =
      e :: (if es = [] then [⟨trackDuration, 0, 1, false⟩] else afterOffset es) := by
  cases es with
  | nil =>
    refine ⟨by simp [setTrackOffset, getTrackOffset]; omega, ⟨start, -1, 1, true⟩, rfl, rfl, ?_⟩
    simp [setTrackOffset]
  | cons a rest =>
    by_cases ha : a.empty = true
    · refine ⟨by simp [setTrackOffset, getTrackOffset, ha]; omega, { a with duration := start }, ha, rfl, ?_⟩
      simp [setTrackOffset, afterOffset, ha]
    · refine ⟨by simp [setTrackOffset, getTrackOffset, ha]; omega, ⟨start, -1, 1, true⟩, rfl, rfl, ?_⟩
      simp [setTrackOffset, afterOffset, ha]

example : setTrackOffset [⟨600, -1, 1, true⟩, ⟨90, 5, 1, false⟩] 300 0 = [⟨300, -1, 1, true⟩, ⟨90, 5, 1, false⟩] := by
  decide

end Verif.Elst
