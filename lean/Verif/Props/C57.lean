import Verif.Lemmas.Conform

/-!
# C57: fragments by any writer are understood as the standard says
-/

namespace Verif.Conform

open Traf (Entry Run Tfhd Trex)
open FragFile (openAt bind_ok)

/-! ## What the code finds, for all fragments in range -/

theorem open_eq (trex : Nat → Option Trex) (pre rest : Bytes) {seq : Nat} {ts : List ATraf}
    (h : ∀ t ∈ ts, TrafOk trex t) (hseq : seq < 2 ^ 32) (hl : (moofBytes seq ts).length < 2 ^ 32) :
    openAt trex (pre ++ moofBytes seq ts ++ rest) pre.length =
      .ok (some ⟨0, 0, seq⟩, (moofBytes seq ts).length, found trex pre.length pre.length ts) := by
  unfold openAt
  rw [List.append_assoc, List.drop_left]
  obtain ⟨hd, e1, e2⟩ := parse_moof h hseq hl rest
  rw [e1]
  dsimp only
  rw [gather_eq trex _ ts _ h, bind_ok, e2]

theorem runs_tail (x : Trex) (t : ATraf) (base : Int) : ∀ (rs : List ARun) (last : Int), (∀ r ∈ rs, r.place.isSome) →
    runsFrom x t base last rs = rs.map fun r => (base + r.place.getD 0, samplesOf x t r) := by
  intro rs
  induction rs with
  | nil => intros; rfl
  | cons r rs ih =>
    intro last h
    obtain ⟨o, ho⟩ := Option.isSome_iff_exists.1 (h r (by simp))
    rw [runsFrom, ih _ fun y hy => h y (by simp [hy]), ho, List.map_cons, ho]
    rfl

theorem runs_eq {x : Trex} {t : ATraf} (h : Offsets t) (base : Int) :
    runsFrom x t base base t.runs = t.runs.map fun r => (base + r.place.getD 0, samplesOf x t r) := by
  unfold Offsets at h
  cases hr : t.runs with
  | nil => rfl
  | cons r rs =>
    rw [hr] at h
    rw [runsFrom, runs_tail x t base rs _ h, List.map_cons]
    cases r.place with
    | none => simp
    | some o => rfl

theorem agree (trex : Nat → Option Trex) (moof : Nat) : ∀ (ts : List ATraf) (prev : Nat) (sprev : Int),
    (∀ t ∈ ts, TrafOk trex t) → (∀ t ∈ ts, Offsets t) → (∀ m ∈ meaning trex moof sprev ts, Placed m) →
    Chained trex moof sprev ts →
    (∀ t ts', ts = t :: ts' → (codeBase moof prev t : Int) = baseOf moof sprev t) →
    (found trex moof prev ts).map asMeaning = meaning trex moof sprev ts := by
  intro ts
  induction ts with
  | nil => intros; rfl
  | cons t ts ih =>
    intro prev sprev h1 h2 h3 h4 h5
    have hb := h5 t ts rfl
    have ht := h1 t (by simp)
    have ho := h2 t (by simp)
    rw [found, meaning, List.map_cons]
    rw [meaning] at h3
    obtain ⟨x, hx⟩ := Option.isSome_iff_exists.1 ht.known
    have h4' := h4
    rw [hx] at h3 ⊢
    simp only [Option.getD_some] at h3 ⊢
    have hp : ∀ r ∈ t.runs, 0 ≤ baseOf moof sprev t + r.place.getD 0 ∧ baseOf moof sprev t + r.place.getD 0 < 2 ^ 64 := by
      intro r hr
      have := h3 _ (List.mem_cons_self ..)
      unfold Placed at this
      dsimp only at this
      rw [runs_eq ho] at this
      exact this _ (List.mem_map_of_mem hr)
    congr 1
    · unfold asMeaning
      dsimp only
      congr 1
      rw [runs_eq ho, List.map_map]
      apply List.map_congr_left
      intro r hr
      obtain ⟨a, b⟩ := hp r hr
      show ((codePlace (codeBase moof prev t) r : Int), _) = _
      congr 1
      unfold codePlace
      rw [hb]
      unfold u64i
      omega
    · cases ts with
      | nil => rfl
      | cons u us =>
        rw [Chained] at h4
        rw [hx] at h4
        simp only [Option.getD_some] at h4
        obtain ⟨hc, h4⟩ := h4
        apply ih _ _ (fun y hy => h1 y (by simp [hy])) (fun y hy => h2 y (by simp [hy]))
          (fun m hm => h3 m (List.mem_cons_of_mem _ hm)) h4
        intro v vs hv
        injection hv with e _
        subst e
        unfold codeBase baseOf
        rcases hc with hc | hc | hc
        · obtain ⟨b, hb⟩ := Option.isSome_iff_exists.1 hc
          rw [hb]
        · rw [if_pos hc, if_pos hc]
          cases u.base <;> rfl
        · have hg : (Traf.fill x moof prev (Traf.hseen (toTfhd t))).base = codeBase moof prev t := by
            rw [fill_eq]; rfl
          have key := dataEnd_eq (x := x) (t := t) (g := Traf.fill x moof prev (Traf.hseen (toTfhd t))) ht.runs hc.1
            (by rw [fill_eq]) (by rw [hg, hb]; exact hc.2.1) (by rw [hg, hb]; exact hc.2.2)
            (by
              intro r hr o hro
              rw [hg, hb]
              have := (hp r hr).1
              rw [hro] at this
              exact this)
          rw [hg, hb] at key
          cases u.base with
          | some b => rfl
          | none =>
            dsimp only
            by_cases hf : u.fromMoof = true
            · rw [if_pos hf, if_pos hf]
            · rw [if_neg hf, if_neg hf]
              exact key

/-- **C57.** Reading a movie fragment of any writer, anywhere in a file, gives for each track fragment the
track, the decode time, and the runs with the samples and the places of the data that the standard
defines; and the number and the size of the fragment.

Missing for the full claim: a run without an offset behind another run (`c57_not_second_run`), a
track fragment that is based on the end of one with more than one run (`c57_not_chained`) or of one that
ends behind the first 4 GB (`c57_not_far`). -/
theorem c57_understood_partial (trex : Nat → Option Trex) (pre rest : Bytes) {seq : Nat} {ts : List ATraf}
    (h : ∀ t ∈ ts, TrafOk trex t) (hseq : seq < 2 ^ 32) (hl : (moofBytes seq ts).length < 2 ^ 32)
    (ho : ∀ t ∈ ts, Offsets t) (hp : ∀ m ∈ meaning trex pre.length pre.length ts, Placed m)
    (hc : Chained trex pre.length pre.length ts) :
    ∃ fs, openAt trex (pre ++ moofBytes seq ts ++ rest) pre.length =
        .ok (some ⟨0, 0, seq⟩, (moofBytes seq ts).length, fs) ∧
      fs.map asMeaning = meaning trex pre.length pre.length ts := by
  refine ⟨_, open_eq trex pre rest h hseq hl, agree trex _ ts _ _ h ho hp hc ?_⟩
  intro t ts' _
  unfold codeBase baseOf
  cases t.base with
  | some b => rfl
  | none => dsimp only; split <;> rfl

/-- With the base at the fragment box, as in most files today, or with explicit bases, there are no
conditions between track fragments. -/
theorem c57_moof_based (trex : Nat → Option Trex) (pre rest : Bytes) {seq : Nat} {ts : List ATraf}
    (h : ∀ t ∈ ts, TrafOk trex t) (hseq : seq < 2 ^ 32) (hl : (moofBytes seq ts).length < 2 ^ 32)
    (ho : ∀ t ∈ ts, Offsets t) (hp : ∀ m ∈ meaning trex pre.length pre.length ts, Placed m)
    (hb : ∀ t ∈ ts, t.base.isSome ∨ t.fromMoof = true) :
    ∃ fs, openAt trex (pre ++ moofBytes seq ts ++ rest) pre.length =
        .ok (some ⟨0, 0, seq⟩, (moofBytes seq ts).length, fs) ∧
      fs.map asMeaning = meaning trex pre.length pre.length ts := by
  refine c57_understood_partial trex pre rest h hseq hl ho hp ?_
  have : ∀ (ts : List ATraf) (prev : Int), (∀ t ∈ ts, t.base.isSome ∨ t.fromMoof = true) → Chained trex pre.length prev ts := by
    intro ts
    induction ts with
    | nil => intros; trivial
    | cons t ts ih =>
      intro prev hb
      cases ts with
      | nil => trivial
      | cons u us =>
        refine ⟨?_, ih _ fun y hy => hb y (by simp [hy])⟩
        rcases hb u (by simp) with h | h
        · exact .inl h
        · exact .inr (.inl h)
  exact this ts _ hb

/-! ## A fragment that meets the conditions -/

namespace Example

/-- Audio: one size and duration for all, from the track; video: sizes and flags, offsets. -/
def trex : Nat → Option Trex
  | 1 => some ⟨1, 1000, 0, 0x10000⟩
  | 2 => some ⟨1, 1024, 4, 0⟩
  | _ => none

def video : ATraf := ⟨1, none, none, none, none, none, false, false, some (true, 2 ^ 40), [
  ⟨1, some 300, some 0x2000000, false, true, false, true, [⟨0, 5, 0, 0⟩, ⟨0, 6, 0, 2000⟩, ⟨0, 7, 0, 1000⟩]⟩]⟩

/-- Based on the end of the video. -/
def audio : ATraf := ⟨2, none, none, none, none, none, false, false, some (false, 77), [
  ⟨0, none, none, false, false, false, false, [⟨0, 0, 0, 0⟩, ⟨0, 0, 0, 0⟩]⟩,
  ⟨0, some (-20), none, true, false, false, false, [⟨9, 0, 0, 0⟩]⟩]⟩

theorem videoOk : TrafOk trex video := by
  refine ⟨by decide, by decide, by (intro n h; cases h), by (intro n h; cases h), by (intro n h; cases h),
    by (intro n h; cases h), by (intro n h; cases h), ?_, by decide, ?_⟩
  · intro w v h; cases h; decide
  · intro r hr
    simp only [video, List.mem_singleton] at hr
    subst hr
    exact ⟨by decide, by (intro o h; cases h; decide), by (intro n h; cases h; decide), by decide, by decide, by decide,
      by decide⟩

theorem audioOk : TrafOk trex audio := by
  refine ⟨by decide, by decide, by (intro n h; cases h), by (intro n h; cases h), by (intro n h; cases h),
    by (intro n h; cases h), by (intro n h; cases h), ?_, by decide, ?_⟩
  · intro w v h; cases h; decide
  · intro r hr
    simp only [audio, List.mem_cons, List.not_mem_nil, or_false] at hr
    rcases hr with rfl | rfl
    · exact ⟨by decide, by (intro o h; cases h), by (intro n h; cases h), by decide, by decide, by decide, by decide⟩
    · exact ⟨by decide, by (intro o h; cases h; decide), by (intro n h; cases h), by decide, by decide, by decide, by decide⟩

theorem offsets : ∀ t ∈ [video, audio], Offsets t := by
  intro t ht
  simp only [List.mem_cons, List.not_mem_nil, or_false] at ht
  unfold Offsets
  rcases ht with rfl | rfl <;> decide

/-- The video is at 1300, the audio behind its 18 bytes, its second run 20 bytes before its base. -/
theorem means : meaning trex 1000 1000 [video, audio] =
    [⟨1, some (2 ^ 40), [(1300, [⟨1000, 5, 0x2000000, 0⟩, ⟨1000, 6, 0x10000, 2000⟩, ⟨1000, 7, 0x10000, 1000⟩])]⟩,
     ⟨2, some 77, [(1318, [⟨1024, 4, 0, 0⟩, ⟨1024, 4, 0, 0⟩]), (1298, [⟨9, 4, 0, 0⟩])]⟩] := rfl

example : ∃ fs, openAt trex (List.replicate 1000 0 ++ moofBytes 3 [video, audio] ++ [1, 2, 3]) 1000 =
    .ok (some ⟨0, 0, 3⟩, (moofBytes 3 [video, audio]).length, fs) ∧ fs.map asMeaning = meaning trex 1000 1000 [video, audio] := by
  have hl : (List.replicate 1000 (0 : UInt8)).length = 1000 := List.length_replicate
  have := c57_understood_partial trex (List.replicate 1000 0) [1, 2, 3] (seq := 3) (ts := [video, audio])
    (by
      intro t ht
      simp only [List.mem_cons, List.not_mem_nil, or_false] at ht
      rcases ht with rfl | rfl
      · exact videoOk
      · exact audioOk) (by decide) (by decide +kernel) offsets
    (by
      rw [hl]
      intro m hm
      have : m ∈ meaning trex 1000 1000 [video, audio] := hm
      rw [means] at this
      simp only [List.mem_cons, List.not_mem_nil, or_false] at this
      unfold Placed
      rcases this with rfl | rfl <;> decide)
    (by
      rw [hl]
      exact ⟨.inr (.inr (by decide)), trivial⟩)
  rw [hl] at this
  exact this

end Example

/-! ## What the code gets wrong -/

theorem codePlace_none {b : Nat} {r : ARun} (h : r.place = none) (hb : b < 2 ^ 64) : codePlace b r = b := by
  unfold codePlace u64i
  rw [h]
  simp only [Option.getD_none]
  omega

/-- The second run of a track fragment has no offset, as when the data of the runs follows on: it is found
at the base, where the data of the first run is, and not behind that data. -/
theorem c57_not_second_run (trex : Nat → Option Trex) (pre rest : Bytes) {seq b : Nat} {t : ATraf} {r s : ARun}
    (h : TrafOk trex t) (hseq : seq < 2 ^ 32) (hl : (moofBytes seq [t]).length < 2 ^ 32) (hb : t.base = some b)
    (hr : t.runs = [r, s]) (h1 : r.place = none) (h2 : s.place = none) :
    ∃ n fs f m p q, openAt trex (pre ++ moofBytes seq [t] ++ rest) pre.length = .ok (some ⟨0, 0, seq⟩, n, fs) ∧
      fs[0]? = some f ∧ f.runs[1]? = some p ∧ p.1 = b ∧
      (meaning trex pre.length pre.length [t])[0]? = some m ∧ m.runs[1]? = some q ∧
      q.1 = (b : Int) + dataSize ((trex t.id).getD ⟨0, 0, 0, 0⟩) t r := by
  have hb64 := h.base b hb
  refine ⟨_, _, _, _, (codePlace b s, samplesOf ((trex t.id).getD ⟨0, 0, 0, 0⟩) t s),
    ((b : Int) + dataSize ((trex t.id).getD ⟨0, 0, 0, 0⟩) t r, samplesOf ((trex t.id).getD ⟨0, 0, 0, 0⟩) t s),
    open_eq trex pre rest (by simpa using h) hseq hl, rfl, ?_, ?_, rfl, ?_, ?_⟩
  · dsimp only
    rw [hr]
    unfold codeBase
    rw [hb]
    rfl
  · exact codePlace_none h2 hb64
  · dsimp only
    rw [hr]
    unfold baseOf
    rw [hb]
    simp only [runsFrom, h1, h2]
    rfl
  · rfl

/-- A track fragment is based on the end of the one before, which has two runs: it is found too far
behind, by the size of the data of the first of these. -/
theorem c57_not_chained (trex : Nat → Option Trex) (pre rest : Bytes) {seq b : Nat} {o : Int} {t u : ATraf} {r s v : ARun}
    (h : TrafOk trex t) (h' : TrafOk trex u) (hseq : seq < 2 ^ 32) (hl : (moofBytes seq [t, u]).length < 2 ^ 32)
    (hb : t.base = some b) (hr : t.runs = [r, s]) (h1 : s.place = some o) (hu : u.base = none) (hu' : u.fromMoof = false)
    (hv : u.runs = [v]) (h2 : v.place = none) (h0 : 0 ≤ b + o)
    (h32 : b + o + dataSize ((trex t.id).getD ⟨0, 0, 0, 0⟩) t r + dataSize ((trex t.id).getD ⟨0, 0, 0, 0⟩) t s < 2 ^ 32) :
    ∃ n fs f m p q, openAt trex (pre ++ moofBytes seq [t, u] ++ rest) pre.length = .ok (some ⟨0, 0, seq⟩, n, fs) ∧
      fs[1]? = some f ∧ f.runs[0]? = some p ∧
      (meaning trex pre.length pre.length [t, u])[1]? = some m ∧ m.runs[0]? = some q ∧
      (p.1 : Int) = q.1 + dataSize ((trex t.id).getD ⟨0, 0, 0, 0⟩) t r := by
  generalize hx : (trex t.id).getD ⟨0, 0, 0, 0⟩ = x at h32 ⊢
  have hrr := h.runs r (by rw [hr]; simp)
  have hrs := h.runs s (by rw [hr]; simp)
  have hg : (Traf.fill x pre.length pre.length (Traf.hseen (toTfhd t))).base = b := by
    rw [fill_eq, hb]
  have hend : (FragFile.dataEnd (Traf.fill x pre.length pre.length (Traf.hseen (toTfhd t)))
      (t.runs.map fun r => Traf.seen (toRun r)) : Int) = b + o + dataSize x t r + dataSize x t s := by
    rw [hr]
    unfold FragFile.dataEnd
    simp only [List.map_cons, List.map_nil, FragFile.endLoop]
    have ef : (Traf.seen (toRun s)).flags = s.tr_flags := rfl
    rw [total_eq (x := x) (t := t) hrr (by rw [fill_eq]) (Nat.zero_lt_succ _),
      total_eq (x := x) (t := t) hrs (by rw [fill_eq]) (Nat.mod_lt _ (by decide)), ef, (hasR hrs).place]
    unfold Traf.place
    rw [s32_place hrs, hg, h1]
    simp only [Option.isSome_some, if_true, Option.getD_some]
    unfold u64i
    omega
  refine ⟨_, _, _, _, (codePlace (FragFile.dataEnd (Traf.fill x pre.length pre.length (Traf.hseen (toTfhd t)))
      (t.runs.map fun r => Traf.seen (toRun r))) v, samplesOf ((trex u.id).getD ⟨0, 0, 0, 0⟩) u v),
    ((b : Int) + o + dataSize x t s, samplesOf ((trex u.id).getD ⟨0, 0, 0, 0⟩) u v),
    open_eq trex pre rest (by simp; exact ⟨h, h'⟩) hseq hl, rfl, ?_, rfl, ?_, ?_⟩
  · dsimp only
    rw [hv, hx]
    simp only [codeBase, hu, hu']
    rfl
  · dsimp only
    rw [hv, hx]
    have e : endFrom x t (baseOf pre.length pre.length t) (baseOf pre.length pre.length t) t.runs = b + o + dataSize x t s := by
      rw [hr]
      simp only [endFrom, h1, baseOf, hb]
    rw [e]
    simp only [baseOf, hu, hu', runsFrom, h2]
    rfl
  · rw [codePlace_none h2 (by omega), hend]
    dsimp only
    omega

/-- A track fragment is based on the end of the one before, which lies behind the first 4 GB of the file:
it is found a multiple of 4 GB too low. -/
theorem c57_not_far (trex : Nat → Option Trex) (pre rest : Bytes) {seq b : Nat} {t u : ATraf} {r v : ARun}
    (h : TrafOk trex t) (h' : TrafOk trex u) (hseq : seq < 2 ^ 32) (hl : (moofBytes seq [t, u]).length < 2 ^ 32)
    (hb : t.base = some b) (hr : t.runs = [r]) (h1 : r.place = none) (hu : u.base = none) (hu' : u.fromMoof = false)
    (hv : u.runs = [v]) (h2 : v.place = none) :
    ∃ n fs f m p q, openAt trex (pre ++ moofBytes seq [t, u] ++ rest) pre.length = .ok (some ⟨0, 0, seq⟩, n, fs) ∧
      fs[1]? = some f ∧ f.runs[0]? = some p ∧
      (meaning trex pre.length pre.length [t, u])[1]? = some m ∧ m.runs[0]? = some q ∧
      q.1 = (b : Int) + dataSize ((trex t.id).getD ⟨0, 0, 0, 0⟩) t r ∧ (p.1 : Int) = q.1 % 2 ^ 32 := by
  generalize hx : (trex t.id).getD ⟨0, 0, 0, 0⟩ = x
  have hrr := h.runs r (by rw [hr]; simp)
  have hb64 := h.base b hb
  have hg : (Traf.fill x pre.length pre.length (Traf.hseen (toTfhd t))).base = b := by
    rw [fill_eq, hb]
  have hend : FragFile.dataEnd (Traf.fill x pre.length pre.length (Traf.hseen (toTfhd t)))
      (t.runs.map fun r => Traf.seen (toRun r)) = (b + dataSize x t r) % 4294967296 := by
    rw [hr]
    unfold FragFile.dataEnd
    simp only [List.map_cons, List.map_nil, FragFile.endLoop]
    have ef : (Traf.seen (toRun r)).flags = r.tr_flags := rfl
    rw [total_eq (x := x) (t := t) hrr (by rw [fill_eq]) (Nat.zero_lt_succ _), ef, (hasR hrr).place, hg, h1]
    simp only [Option.isSome_none, Bool.false_eq_true, if_false]
    omega
  refine ⟨_, _, _, _, (codePlace (FragFile.dataEnd (Traf.fill x pre.length pre.length (Traf.hseen (toTfhd t)))
      (t.runs.map fun r => Traf.seen (toRun r))) v, samplesOf ((trex u.id).getD ⟨0, 0, 0, 0⟩) u v),
    ((b : Int) + dataSize x t r, samplesOf ((trex u.id).getD ⟨0, 0, 0, 0⟩) u v),
    open_eq trex pre rest (by simp; exact ⟨h, h'⟩) hseq hl, rfl, ?_, rfl, ?_, ?_⟩
  · dsimp only
    rw [hv, hx]
    simp only [codeBase, hu, hu']
    rfl
  · dsimp only
    rw [hv, hx]
    have e : endFrom x t (baseOf pre.length pre.length t) (baseOf pre.length pre.length t) t.runs = b + dataSize x t r := by
      rw [hr]
      simp only [endFrom, h1, baseOf, hb]
    rw [e]
    simp only [baseOf, hu, hu', runsFrom, h2]
    rfl
  · refine ⟨rfl, ?_⟩
    rw [hend, codePlace_none h2 (by omega)]
    dsimp only
    omega

theorem gather_none (trex : Nat → Option Trex) (moof : Nat) : ∀ (ts : List ATraf) (prev : Nat) (l : List (Option Traf.RTraf)),
    (∀ t ∈ ts, TrafOk trex t) → FragFile.gather trex moof (ts.map (fun t => some (back t)) ++ none :: l) prev = .ub := by
  intro ts
  induction ts with
  | nil => intros; rfl
  | cons t ts ih =>
    intro prev l h
    have ht := h t (by simp)
    have hg := gather_eq trex moof [t] prev (by simpa using ht)
    rw [List.map_cons, List.cons_append, FragFile.gather]
    have e0 : (back t).tfhd = some (Traf.hseen (toTfhd t)) := rfl
    have e3 : (Traf.hseen (toTfhd t)).trackId = t.id := rfl
    simp only [List.map_cons, List.map_nil, FragFile.gather, e0, e3, if_neg (show ¬ t.id = 0 by have := ht.id.1; omega)] at hg ⊢
    obtain ⟨x, hx⟩ := Option.isSome_iff_exists.1 ht.known
    simp only [hx] at hg ⊢
    generalize (if Traf.has (Traf.hseen (toTfhd t)).flags 0x10000 = true then Res.ok []
      else Traf.mergeRuns (Traf.fill x moof prev (Traf.hseen (toTfhd t))) (back t).runs) = y at hg ⊢
    cases y with
    | ok a =>
      rw [bind_ok, ih _ l fun z hz => h z (by simp [hz])]
      rfl
    | err e => cases hg
    | ub => rfl

/-- A box of another type. -/
theorem other_child {type : Nat} {payload : Bytes} (ht : type < 2 ^ 32) (hty1 : type ≠ FragSeq.typeMfhd)
    (hty2 : type ≠ Traf.typeTraf) (hty3 : type ≠ typeUuid) (hbl : 8 + payload.length < 4294967296) :
    FragFile.MChild .other (box type payload) := by
  generalize hn : 8 + payload.length = n at hbl
  have hlen : (box type payload).length = n := by
    simp only [box, List.length_append, be_length]; omega
  refine ⟨by omega, fun rest => ⟨⟨n, type, [], 0, 8⟩, ?_, hlen.symm⟩⟩
  have hp : ParsesAt (FragFile.memberParse ⟨n, type, [], 0, 8⟩) 8 payload .other := by
    have hm : ∀ k, k = payload.length → ParsesAt (getBytes k >>= fun _ => pure FragFile.Member.other) 8 payload .other :=
      fun k hk => (Parses.bind_nil (f := fun _ => pure FragFile.Member.other) (parses_getBytes hk.symm) (parses_pure _)).at 8
    unfold FragFile.memberParse
    dsimp only
    rw [if_neg hty1, if_neg hty2]
    exact parsesAt_bytesRead (hm _ (by omega))
  have := parseAtom_small hp hn.symm hbl ht hty3 rest
  unfold box
  rw [hn]
  exact this

def withOther (seq : Nat) (ts : List ATraf) (bs : Bytes) : List (FragFile.Member × Bytes) :=
  moofKids seq ts ++ [(.other, bs)]

theorem parse_other {trex : Nat → Option Trex} {ts : List ATraf} (h : ∀ t ∈ ts, TrafOk trex t) {seq : Nat}
    (hseq : seq < 2 ^ 32) {bs : Bytes} (hbs : FragFile.MChild .other bs)
    (hl : (box FragFile.typeMoof ((withOther seq ts bs).flatMap (·.2))).length < 2 ^ 32) (rest : Bytes) :
    ∃ hd, parseAtom FragFile.parse (box FragFile.typeMoof ((withOther seq ts bs).flatMap (·.2)) ++ rest) =
      .ok (⟨some ⟨0, 0, seq⟩, ts.map (fun t => some (back t)) ++ [none]⟩, hd, rest) := by
  have hbl : (box FragFile.typeMoof ((withOther seq ts bs).flatMap (·.2))).length =
      8 + ((withOther seq ts bs).flatMap (·.2)).length := by
    simp only [box, List.length_append, be_length]
  have hch : ∀ c ∈ withOther seq ts bs, FragFile.MChild c.1 c.2 := by
    intro c hc
    rcases List.mem_append.1 hc with hc | hc
    · rcases List.mem_cons.1 hc with rfl | hc
      · exact FragFile.mfhd_child hseq
      · obtain ⟨t, ht, rfl⟩ := List.mem_map.1 hc
        refine traf_child (h t ht) ?_
        obtain ⟨l1, l2, e⟩ := List.append_of_mem ht
        rw [hbl] at hl
        unfold withOther moofKids at hl
        rw [e] at hl
        simp only [List.length_append, List.flatMap_append, List.flatMap_cons, List.map_append, List.map_cons] at hl
        omega
    · simp only [List.mem_singleton] at hc
      subst hc
      exact hbs
  have hk := Traf.length_le_flatMap (g := fun c : FragFile.Member × Bytes => c.2) fun c hc => (hch c hc).1
  generalize hn : 8 + ((withOther seq ts bs).flatMap (·.2)).length = n at hbl
  have hp : ParsesAt (FragFile.parse ⟨n, FragFile.typeMoof, [], 0, 8⟩) 8 ((withOther seq ts bs).flatMap (·.2))
      ⟨some ⟨0, 0, seq⟩, ts.map (fun t => some (back t)) ++ [none]⟩ := by
    intro r
    unfold FragFile.parse
    rw [FragFile.members_children n (by omega) r (withOther seq ts bs) _ _ 8 hch
      (by simp only [List.length_append]; omega) hn, bind_ok]
    dsimp only
    rw [if_neg (by simp), hn]
    congr 2
    have e : ((withOther seq ts bs).map (·.1)) =
        FragFile.Member.mfhd ⟨0, 0, seq⟩ :: ((ts.map back).map FragFile.Member.traf ++ [.other]) := by
      simp [withOther, moofKids]
    rw [e, List.foldl_cons, List.foldl_append, FragFile.addTrafs]
    simp [FragFile.addAtom]
  refine ⟨⟨n, FragFile.typeMoof, [], 0, 8⟩, ?_⟩
  have := parseAtom_small hp hn.symm (by omega) (by decide) (by decide) rest
  unfold box
  rw [hn]
  exact this

/-- A fragment with a box of some other type behind its track fragments, for example `meta` or one that is
not known: the box is taken for a track fragment. -/
theorem c57_not_member (trex : Nat → Option Trex) (pre rest payload : Bytes) {seq type : Nat} {ts : List ATraf}
    (h : ∀ t ∈ ts, TrafOk trex t) (hseq : seq < 2 ^ 32) (ht : type < 2 ^ 32)
    (hty : type ≠ fcc 'm' 'f' 'h' 'd' ∧ type ≠ fcc 't' 'r' 'a' 'f' ∧ type ≠ fcc 'u' 'u' 'i' 'd')
    (hl : (box (fcc 'm' 'o' 'o' 'f') (fullBox (fcc 'm' 'f' 'h' 'd') 0 0 (be 4 seq) ++ ts.flatMap ATraf.bytes ++
      box type payload)).length < 2 ^ 32) :
    openAt trex (pre ++ box (fcc 'm' 'o' 'o' 'f') (fullBox (fcc 'm' 'f' 'h' 'd') 0 0 (be 4 seq) ++
      ts.flatMap ATraf.bytes ++ box type payload) ++ rest) pre.length = .ub := by
  have t1 : FragSeq.typeMfhd = fcc 'm' 'f' 'h' 'd' := by decide
  have t2 : Traf.typeTraf = fcc 't' 'r' 'a' 'f' := by decide
  have t3 : typeUuid = fcc 'u' 'u' 'i' 'd' := by decide
  have t4 : fcc 'm' 'o' 'o' 'f' = FragFile.typeMoof := by decide
  have hcs : fullBox (fcc 'm' 'f' 'h' 'd') 0 0 (be 4 seq) ++ ts.flatMap ATraf.bytes ++ box type payload =
      (withOther seq ts (box type payload)).flatMap (·.2) := by
    simp only [withOther, moofKids, List.flatMap_append, List.flatMap_cons, List.flatMap_map, List.flatMap_nil, List.append_nil]
    rfl
  have hbl : 8 + payload.length < 4294967296 := by
    simp only [box, List.length_append, be_length] at hl
    omega
  have ho := other_child ht (by rw [t1]; exact hty.1) (by rw [t2]; exact hty.2.1) (by rw [t3]; exact hty.2.2) hbl
  rw [hcs, t4] at hl ⊢
  obtain ⟨hd, e⟩ := parse_other h hseq ho hl rest
  unfold openAt
  rw [List.append_assoc, List.drop_left, e]
  dsimp only
  rw [gather_none trex _ ts _ [] h]
  rfl

/-- A fragment of a track that the movie has no defaults for: a pointer that was not set is used. -/
theorem c57_not_track (trex : Nat → Option Trex) (pre rest : Bytes) {seq : Nat} {t : ATraf} (x : Trex)
    (h : TrafOk (fun _ => some x) t) (hx : trex t.id = none) (hseq : seq < 2 ^ 32)
    (hl : (moofBytes seq [t]).length < 2 ^ 32) :
    openAt trex (pre ++ moofBytes seq [t] ++ rest) pre.length = .ub := by
  unfold openAt
  rw [List.append_assoc, List.drop_left]
  obtain ⟨hd, e1, e2⟩ := parse_moof (trex := fun _ => some x) (ts := [t]) (by simpa using h) hseq hl rest
  rw [e1]
  dsimp only
  have e0 : (back t).tfhd = some (Traf.hseen (toTfhd t)) := rfl
  have e3 : (Traf.hseen (toTfhd t)).trackId = t.id := rfl
  simp only [List.map_cons, List.map_nil, FragFile.gather, e0, e3, if_neg (show ¬ t.id = 0 by have := h.id.1; omega), hx]
  rfl

/-! The hypotheses of these can be met: -/

namespace Example

def plain (n : Nat) (o : Option Int) : ARun := ⟨0, o, none, false, false, false, false, List.replicate n ⟨0, 0, 0, 0⟩⟩

theorem plainOk {n : Nat} {o : Option Int} (h0 : 0 < n) (hn : n < 2 ^ 32) (ho : ∀ x, o = some x → -2 ^ 31 ≤ x ∧ x < 2 ^ 31) :
    RunOk (plain n o) := by
  refine ⟨Nat.zero_lt_succ _, ho, by (intro n h; cases h), by (intro h; cases h), ?_, ?_, ?_⟩
  · intro h
    have := congrArg List.length h
    simp [plain] at this
    omega
  · simpa [plain] using hn
  · intro e he
    have := (List.mem_replicate.1 he).2
    subst this
    decide

/-- Samples of 4 bytes. -/
def two (o : Option Int) : ATraf := ⟨2, some 500, none, none, none, none, false, false, none, [plain 3 none, plain 1 o]⟩

theorem twoOk {o : Option Int} (ho : ∀ x, o = some x → -2 ^ 31 ≤ x ∧ x < 2 ^ 31) : TrafOk trex (two o) := by
  refine ⟨show 0 < 2 ∧ 2 < 2 ^ 32 by decide, rfl, by (intro n h; cases h; decide), by (intro n h; cases h), by (intro n h; cases h),
    by (intro n h; cases h), by (intro n h; cases h), by (intro w v h; cases h), by (intro h; cases h), ?_⟩
  intro r hr
  simp only [two, List.mem_cons, List.not_mem_nil, or_false] at hr
  rcases hr with rfl | rfl
  · exact plainOk (by decide) (by decide) (by (intro x h; cases h))
  · exact plainOk (by decide) (by decide) ho

def one : ATraf := ⟨2, none, none, none, none, none, false, false, none, [plain 2 none]⟩

theorem oneOk : TrafOk trex one := by
  refine ⟨by decide, rfl, by (intro n h; cases h), by (intro n h; cases h), by (intro n h; cases h),
    by (intro n h; cases h), by (intro n h; cases h), by (intro w v h; cases h), by (intro h; cases h), ?_⟩
  intro r hr
  simp only [one, List.mem_singleton] at hr
  subst hr
  exact plainOk (by decide) (by decide) (by (intro x h; cases h))

example := c57_not_second_run trex [1, 2] [] (seq := 1) (twoOk (o := none) (by (intro x h; cases h))) (by decide)
  (by decide +kernel) rfl rfl rfl rfl

example := c57_not_chained trex [1, 2] [] (seq := 1) (twoOk (o := some 12) (by (intro x h; cases h; decide))) oneOk (by decide)
  (by decide +kernel) rfl rfl rfl rfl rfl rfl rfl (by decide) (by decide)

example : openAt trex ([1, 2] ++ box (fcc 'm' 'o' 'o' 'f') (fullBox (fcc 'm' 'f' 'h' 'd') 0 0 (be 4 1) ++
    [one].flatMap ATraf.bytes ++ box (fcc 'm' 'e' 't' 'a') [0, 0, 0, 0]) ++ []) 2 = .ub :=
  c57_not_member trex [1, 2] [] [0, 0, 0, 0] (seq := 1) (type := fcc 'm' 'e' 't' 'a') (ts := [one]) (by simpa using oneOk)
    (by decide) (by decide) (by decide) (by decide +kernel)

end Example

end Verif.Conform
