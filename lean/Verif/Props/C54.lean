import Verif.Lemmas.MergeRep

/-!
# C54: merging the fragments of a track gives their samples, in order

The full statement: after opening a fragmented movie, every sample of every run of every fragment can be
asked for by its number, and is reported with the place of its data, size, decode time, composition
offset, duration, sync status, padding, dependencies and sample description that the fragment states, the
samples of a fragment starting at its decode time.

The code violates it, see the theorems after the positive ones. `c54_merge_partial` is the statement under
the conditions named in `Fits`, `TimesOK` and in the theorem.
-/

namespace Verif.Merge

open Traf (Entry Run Tfhd has)

/-- Merging fragments into an opened track that has no samples of its own. -/
theorem c54_merge_partial (dref drefs : Nat) (hd1 : 1 ≤ dref) (hd2 : dref ≤ drefs) (fs : List Frag)
    (hh : ∀ f ∈ fs, f.tfhd.descIndex = 1 ∧ f.tfhd.flags &&& 0x10000 = 0) (hf : Fits (fs.flatMap Frag.pieces))
    (ht : TimesOK [] fs) (hsum : (fs.foldl after []).sum < 2 ^ 32)
    (hdur : ∀ d ∈ fs.foldl after [], d < 2 ^ 31) :
    ∃ m, mergeAll fs (opened [dref] drefs) = .ok (m, none) ∧
      (fs.foldl after []).length = (samplesOf (fs.flatMap Frag.pieces)).length ∧
      ∀ n s d, (samplesOf (fs.flatMap Frag.pieces))[n]? = some s → (fs.foldl after [])[n]? = some d →
        info m (n + 1) = .ok (expected (fs.flatMap Frag.pieces) (fs.foldl after []) n s d) := by
  obtain ⟨m, h1, R⟩ := Rep.all hd1 hd2 fs _ [] [] (rep_opened dref drefs) hh (by simpa using hf) ht hsum
  rw [List.nil_append] at R
  refine ⟨m, h1, by rw [R.count, samplesOf_length], ?_⟩
  intro n s d hs hd
  exact R.info hf hsum hs hd (hdur d (List.mem_of_getElem? hd))

/-! ## A fragment starts at its decode time -/

theorem after_prefix {P Q : List Nat} (hQ : Q ≠ []) (f : Frag) : ∃ Q', Q' ≠ [] ∧ after (P ++ Q) f = P ++ Q' := by
  unfold after lengthen
  cases f.time with
  | none => exact ⟨Q ++ f.pieces.flatMap fun p => p.entries.map Entry.duration, by simp [hQ], by simp only [List.append_assoc]⟩
  | some t =>
    dsimp only
    rw [List.getLast?_append]
    cases hg : Q.getLast? with
    | none => rw [List.getLast?_eq_none_iff] at hg; exact absurd hg hQ
    | some d =>
      dsimp only [Option.some_or]
      rw [List.dropLast_append_of_ne_nil hQ]
      exact ⟨Q.dropLast ++ [d + (t - (P ++ Q).sum)] ++ f.pieces.flatMap fun p => p.entries.map Entry.duration, by simp, by simp only [List.append_assoc]⟩

theorem afterAll_prefix : ∀ (fs : List Frag) {P Q : List Nat}, Q ≠ [] →
    ∃ Q', fs.foldl after (P ++ Q) = P ++ Q' := by
  intro fs
  induction fs with
  | nil => intro P Q _; exact ⟨Q, rfl⟩
  | cons f fs ih =>
    intro P Q hQ
    obtain ⟨Q1, h1, h2⟩ := after_prefix (P := P) hQ f
    rw [List.foldl_cons, h2]
    exact ih h1

theorem timesOK_append : ∀ (as bs : List Frag) (D : List Nat), TimesOK D (as ++ bs) → TimesOK (as.foldl after D) bs := by
  intro as
  induction as with
  | nil => intro bs D h; exact h
  | cons a as ih => intro bs D h; exact ih bs _ h.2

theorem afterAll_length : ∀ (fs : List Frag) (D : List Nat), (fs.foldl after D).length =
    D.length + (ents (fs.flatMap Frag.pieces)).length := by
  intro fs
  induction fs with
  | nil => intro D; simp
  | cons f fs ih =>
    intro D
    rw [List.foldl_cons, ih]
    unfold after
    rw [List.length_append, lengthen_length]
    simp only [ents, List.flatMap_cons, List.flatMap_append, List.length_append, List.length_flatMap,
      List.length_map]
    omega

/-- The decode time stated by a fragment is the decode time of its first sample: sample number
`(samples before) + 1`. -/
theorem c54_decode_time (fs gs : List Frag) (f : Frag) (t : Nat) (ht : TimesOK [] (fs ++ f :: gs))
    (hft : f.time = some t) (hne : ents f.pieces ≠ []) :
    startOf ((fs ++ f :: gs).foldl after []) (samplesOf (fs.flatMap Frag.pieces)).length = t := by
  obtain ⟨h1, _⟩ := timesOK_append fs (f :: gs) [] ht
  obtain ⟨h2, h3⟩ := h1 t hft
  rw [samplesOf_length, List.foldl_append, List.foldl_cons]
  have hlen := afterAll_length fs []
  rw [List.length_nil, Nat.zero_add] at hlen
  generalize hD : fs.foldl after [] = D at *
  have hQ : (f.pieces.flatMap fun p => p.entries.map Entry.duration) ≠ [] := by
    rw [← List.map_flatMap]
    simpa using hne
  obtain ⟨Q, hq⟩ := afterAll_prefix gs (P := lengthen D f.time) hQ
  have : gs.foldl after (after D f) = lengthen D f.time ++ Q := hq
  rw [this]
  unfold startOf
  rw [← hlen, List.take_left' (lengthen_length D f.time), hft]
  unfold lengthen
  dsimp only
  cases hg : D.getLast? with
  | none =>
    rw [List.getLast?_eq_none_iff] at hg
    subst hg
    rw [h3 rfl]; rfl
  | some d =>
    dsimp only
    have e := getLast?_eq_some_iff_append hg
    have e' : D.sum = D.dropLast.sum + d := by conv => lhs; rw [e, sum_snoc]
    rw [sum_snoc]
    omega

/-! ## A movie that meets the conditions -/

namespace Example

def junk (x : Nat) : Junk := ⟨fun _ => x, fun _ => x, fun _ => x, fun _ => UInt8.ofNat x⟩

/-- Header with all defaults: duration 10, size 4, samples that are not sync samples. -/
def head (base : Nat) : Tfhd := ⟨0, 0x20038, 1, base, 1, 10, 4, 0x10000⟩

/-- Two fragments with two and one runs: a first sample that is a sync sample, sizes stated; the second
fragment starts 5 units after the end of the first, its second run has a padded sample on which no other
sample depends. -/
def frags : List Frag :=
  [⟨head 1000, some 0, [(junk 77, ⟨0, 0x205, 8, 0, [⟨0, 5, 0, 0⟩, ⟨0, 7, 0, 0⟩]⟩)]⟩,
   ⟨head 2000, some 25, [(junk 78, ⟨0, 0x5, 8, 0, [⟨0, 0, 0, 0⟩, ⟨0, 0, 0, 0⟩]⟩),
     (junk 79, ⟨0, 0x601, 16, 0, [⟨0, 9, 0x10000 + 3 * 2 ^ 17 + 2 * 2 ^ 20, 0⟩]⟩)]⟩]

theorem fits : Fits (frags.flatMap Frag.pieces) where
  nonempty := by decide
  data := by decide
  samples := by decide
  runs := by decide
  zero := by decide
  offs := Or.inr (by decide)
  sync := by decide
  sizes := Or.inl (by decide)

example : ∃ m, mergeAll frags (opened [1] 1) = .ok (m, none) ∧
    info m 2 = .ok ⟨1013, 7, 10, 0, 15, false, 0, 0, 1⟩ ∧
    info m 3 = .ok ⟨2008, 4, 25, 0, 10, true, 0, 0, 1⟩ ∧
    info m 5 = .ok ⟨2016, 9, 45, 0, 10, false, 3, 2, 1⟩ := by
  obtain ⟨m, h1, _, h2⟩ := c54_merge_partial 1 1 (by decide) (by decide) frags (by decide) fits
    ⟨by intro t h; injection h with h; subst h; decide, by intro t h; injection h with h; subst h; decide, trivial⟩
    (by decide) (by decide)
  exact ⟨m, h1, (h2 1 (1013, ⟨10, 7, 0x10000, 0⟩) 15 (by decide) (by decide)).trans (by decide),
    (h2 2 (2008, ⟨10, 4, 0, 0⟩) 10 (by decide) (by decide)).trans (by decide),
    (h2 4 (2016, ⟨10, 9, 0x10000 + 3 * 2 ^ 17 + 2 * 2 ^ 20, 0⟩) 10 (by decide) (by decide)).trans (by decide)⟩

end Example

/-! ## What the code does otherwise

Each theorem gives fragments that state their samples plainly, and what is reported after merging them. -/

/-- What is reported about sample `n` after merging. -/
def reported (fs : List Frag) (stsd : List Nat) (drefs n : Nat) : Res Info :=
  (mergeAll fs (opened stsd drefs)).bind fun r => info r.1 n

namespace Example

/-- Header with default duration 10, base 1000, and the given sample description. -/
def plain (desc : Nat) : Tfhd := ⟨0, 0x2000A, 1, 1000, desc, 10, 0, 0⟩

/-- A run of samples of the given sizes and flags at offset `p`. -/
def run (p : Nat) (ss : List (Nat × Nat)) : Run := ⟨0, 0x601, p, 0, ss.map fun s => ⟨0, s.1, s.2, 0⟩⟩

/-- A run of samples of size 3 with the given composition offsets. -/
def runOffs (p : Nat) (os : List Nat) : Run := ⟨0, 0xA01, p, 0, os.map fun o => ⟨0, 3, 0, o⟩⟩

def sizesLost (x : Nat) : List Frag :=
  [⟨plain 1, none, [(junk x, run 0 [(5, 0), (5, 0)]), (junk x, run 10 [(7, 0)])]⟩]

end Example

open Example

/-- Two samples of size 5, then a run with one of size 7: the size reported for the second sample is what
`realloc` left in memory, and that of the first is 0. The table of an opened track has memory for sizes, so
`addSamples` takes what is there for the sizes of the samples so far (SampleSizeAtom.c 75-93). -/
theorem c54_not_sizes :
    (samplesOf ((sizesLost 0).flatMap Frag.pieces)).map (fun s => s.2.size) = [5, 5, 7] ∧
    reported (sizesLost 77) [1] 1 1 = .ok ⟨1000, 0, 0, 0, 10, true, 0xF8, 0, 1⟩ ∧
    reported (sizesLost 77) [1] 1 2 = .ok ⟨1000, 77, 10, 0, 10, true, 0xF8, 0, 1⟩ ∧
    reported (sizesLost 78) [1] 1 2 = .ok ⟨1000, 78, 10, 0, 10, true, 0xF8, 0, 1⟩ := by decide +kernel

/-- A run with a sample that is not a sync sample, then a run of sync samples only: these are reported as
not being sync samples. `mergeRuns` passes no list of sync samples for a run of sync samples only
(TrackFragmentAtom.c 584), and `addSamples` without a list adds none to the table that exists by then
(SampleTableAtom.c 322-345, 360-364). -/
theorem c54_not_sync :
    ([⟨plain 1, none, [(junk 0, run 0 [(5, 0x10000), (6, 0x10000)]), (junk 0, run 11 [(7, 0)])]⟩].flatMap
      Frag.pieces).flatMap (fun p => p.entries.map isSync) = [false, false, true] ∧
    reported [⟨plain 1, none, [(junk 0, run 0 [(5, 0x10000), (6, 0x10000)]), (junk 0, run 11 [(7, 0)])]⟩] [1] 1 3 =
      .ok ⟨1011, 7, 20, 0, 10, false, 0xF8, 0, 1⟩ := by decide +kernel

/-- Two sample descriptions, the fragment uses the first: its sample is reported with the second. The
table records the number of descriptions instead of the description in use (SampleTableAtom.c 365, 400). -/
theorem c54_not_description :
    reported [⟨plain 1, none, [(junk 0, run 0 [(5, 0)])]⟩] [1, 1] 1 1 =
      .ok ⟨1000, 5, 0, 0, 10, true, 0xF8, 0, 2⟩ := by decide +kernel

/-- A fragment with a sample description that does not exist: merging reports no error, but the sample is
not there, and asking for it reads a variable that was not set (C09). -/
theorem c54_not_error :
    (∃ m, mergeAll [⟨plain 2, none, [(junk 0, run 0 [(5, 0)])]⟩] (opened [1] 1) = .ok (m, none)) ∧
    reported [⟨plain 2, none, [(junk 0, run 0 [(5, 0)])]⟩] [1] 1 1 = .ub :=
  ⟨⟨_, rfl⟩, by decide +kernel⟩

/-- The first fragment of a track without samples has a decode time above 0, as every later segment of a
stream has: the entry to extend is a NULL pointer (MovieFragmentAtom.c 164-168, TimeToSampleAtom.c 151). -/
theorem c54_not_first_time (t : Nat) (ht : 0 < t) (rs : List (Junk × Run)) (fs : List Frag) :
    mergeAll (⟨plain 1, some t, rs⟩ :: fs) (opened [1] 1) = .ub := by
  have h0 : Stts.totalDuration (opened [1] 1).stts.entries = 0 := rfl
  have hs : startAt t (opened [1] 1) = .ub := by
    unfold startAt
    rw [h0, if_neg (by omega), if_pos (by omega)]
    rfl
  unfold mergeAll Step.andThen mergeFragment Step.andThen
  dsimp only
  rw [hs]
  rfl

/-- A run without samples: the first size of an empty list is read (SampleSizeAtom.c 67). -/
theorem c54_not_empty_run :
    mergeAll [⟨plain 1, none, [(junk 0, run 0 [])]⟩] (opened [1] 1) = .ub := by rfl

/-- A sample without composition offset, then a run with one sample with offset 8: the offset is reported
for the first sample, and 0 for the second (see C17). -/
theorem c54_not_offsets :
    reported [⟨plain 1, none, [(junk 0, run 0 [(3, 0)]), (junk 0, runOffs 3 [8])]⟩] [1] 1 1 =
      .ok ⟨1000, 3, 0, 8, 10, true, 0xF8, 0, 1⟩ ∧
    reported [⟨plain 1, none, [(junk 0, run 0 [(3, 0)]), (junk 0, runOffs 3 [8])]⟩] [1] 1 2 =
      .ok ⟨1003, 3, 10, 0, 10, true, 0xF8, 0, 1⟩ := by decide +kernel

end Verif.Merge
