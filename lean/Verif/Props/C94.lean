import Verif.Lemmas.CodecDesc
import Verif.Props.C65

/-!
# C94: Decoder configurations asked for, extended and made through whole sample entries
-/

namespace Verif.Cod

open Verif.Ent Verif.Sde Verif.Config

variable {α : Type} {C : Class α} {s : Sample (Cx α)}

/-! ## Asking -/

/-- **C94, H.264.** The first configuration of the entry answers; the index of the data reference is that of the entry. -/
theorem c94_avc (h : Codec C s) (ht : s.type = fcc 'a' 'v' 'c' '1') {c : Avc}
    (hb : boxOf s.kids (fcc 'a' 'v' 'c' 'C') = some (avcKid c)) :
    getAvc C s.bytes = .ok (s.dref, c.lengthSize, c.sps.length, c.pps.length, c.spsext.length) ∧
      ∀ kind i, kind < 4 → getAvcSet C s.bytes kind i = avcSetIn c kind i := by
  have e := findAvc_eq h.boxes
  rw [hb] at e
  obtain ⟨n, c', hc, hv, e⟩ := e
  cases hv
  have ho := openAs_of (types := [typeAvc1]) h.opened
  rw [if_pos (by rw [ht]; decide)] at ho
  refine ⟨?_, fun kind i hk => ?_⟩
  · unfold getAvc
    rw [ho, Res.ok_bind, entry_ext, e, Res.ok_bind, entry_dref]
  · unfold getAvcSet
    rw [ho, Res.ok_bind, entry_ext, e, Res.ok_bind]
    exact avc_get hc hk i

/-- Only two bits of the kind of a set count. -/
theorem c94_avc_kind (b : Bytes) (kind i : Nat) : getAvcSet C b kind i = getAvcSet C b (kind % 4) i := by
  have e : ∀ c : Avc, c.get kind i = c.get (kind % 4) i := by
    intro c
    have := Nat.and_two_pow_sub_one_eq_mod kind 2
    have h2 := Nat.and_two_pow_sub_one_eq_mod (kind % 4) 2
    rw [show 2 ^ 2 - 1 = 3 from rfl] at this h2
    unfold Avc.get
    rw [this, h2, show kind % 4 % 2 ^ 2 = kind % 2 ^ 2 by omega]
  unfold getAvcSet
  simp only [e]

/-- **C94, H.265.** For both types of entries. -/
theorem c94_hevc (h : Codec C s) (ht : s.type = fcc 'h' 'v' 'c' '1' ∨ s.type = fcc 'h' 'v' 'c' '2') {c : Hevc}
    (hb : boxOf s.kids (fcc 'h' 'v' 'c' 'C') = some (hevcKid c)) (nalu i : Nat) :
    getHevcSet C s.bytes nalu i = setIn (c.arrays.take c.count) nalu i := by
  have e := findHevc_eq h.boxes
  rw [hb] at e
  obtain ⟨c', hc, hv, e⟩ := e
  cases hv
  have ho := openAs_of (types := typesHevc) h.opened
  rw [if_pos (by rcases ht with ht | ht <;> rw [ht] <;> decide)] at ho
  unfold getHevcSet
  rw [ho, Res.ok_bind, entry_ext, e, Res.ok_bind]
  exact hevc_get hc nalu i

/-- **C94, H.266.** -/
theorem c94_vvc (h : Codec C s) (ht : s.type = fcc 'v' 'v' 'c' '1' ∨ s.type = fcc 'v' 'v' 'i' '1') {c : Vvc}
    (hb : boxOf s.kids (fcc 'v' 'v' 'c' 'C') = some (vvcKid c)) (nalu : Nat) :
    (∀ i, getVvcSet C s.bytes nalu i = setIn c.arrays nalu i) ∧
      match setsIn c.arrays nalu with
      | some l => getVvcCount C s.bytes nalu = .ok l.length ∧ getVvc C s.bytes nalu = .ok (s.dref, c.lengthSize1 + 1, l.length)
      | none => getVvcCount C s.bytes nalu = .err .badParam ∧ getVvc C s.bytes nalu = .err .badParam := by
  have e := findVvc_eq h.boxes
  rw [hb] at e
  obtain ⟨n, c', hc, hv, e⟩ := e
  cases hv
  have ho := openAs_of (types := typesVvc) h.opened
  rw [if_pos (by rcases ht with ht | ht <;> rw [ht] <;> decide)] at ho
  have h4 := hc.lengthSize1
  have hn := vvc_count c nalu
  refine ⟨fun i => ?_, ?_⟩
  · unfold getVvcSet
    rw [ho, Res.ok_bind, entry_ext, e, Res.ok_bind]
    exact vvc_get hc nalu i
  · unfold getVvcCount getVvc
    rw [ho, Res.ok_bind, Res.ok_bind, entry_ext, e, Res.ok_bind, Res.ok_bind, entry_dref]
    cases hs : setsIn c.arrays nalu with
    | some l =>
      rw [hs] at hn
      refine ⟨hn, ?_⟩
      show (countOf c nalu).bind _ = _
      rw [hn]
      show Res.ok (s.dref, (c.lengthSize1 + 1) % 4294967296, l.length) = _
      rw [Nat.mod_eq_of_lt (by omega)]
    | none =>
      rw [hs] at hn
      exact ⟨hn, by show (countOf c nalu).bind _ = _; rw [hn]; rfl⟩

/-- **C94, sub-pictures of H.266.** -/
theorem c94_subpic (h : Codec C s) (ht : s.type = fcc 'v' 'v' 's' '1') {v f n : Nat}
    (hb : boxOf s.kids (fcc 'v' 'v' 'n' 'C') = some (vvnKid v f n)) : getSubpic C s.bytes = .ok (s.dref, n + 1) := by
  have e := findVvn_eq h.boxes
  rw [hb] at e
  obtain ⟨v', f', n', hn, hv, e⟩ := e
  cases hv
  have ho := openAs_of (types := [typeVvs1]) h.opened
  rw [if_pos (by rw [ht]; decide)] at ho
  unfold getSubpic
  rw [ho, Res.ok_bind, entry_ext, e, Res.ok_bind, entry_dref, Nat.mod_eq_of_lt (by omega)]

/-- **C94, restricted video.** The H.265 configuration answers when there is one, else that of H.264; one of H.266 is not
looked for. -/
theorem c94_restricted (h : Codec C s) (ht : s.type = fcc 'r' 'e' 's' 'v') (kind i : Nat) :
    (∀ c, boxOf s.kids (fcc 'h' 'v' 'c' 'C') = some (hevcKid c) →
      getResvSet C s.bytes kind i = setIn (c.arrays.take c.count) kind i) ∧
    (boxOf s.kids (fcc 'h' 'v' 'c' 'C') = none →
      (∀ c, boxOf s.kids (fcc 'a' 'v' 'c' 'C') = some (avcKid c) → kind < 4 → getResvSet C s.bytes kind i = avcSetIn c kind i) ∧
      (boxOf s.kids (fcc 'a' 'v' 'c' 'C') = none → getResvSet C s.bytes kind i = .err .badData)) := by
  have ho := openAs_of (types := [typeResv]) h.opened
  rw [if_pos (by rw [ht]; decide)] at ho
  have e1 := findHevc_eq h.boxes
  have e2 := findAvc_eq h.boxes
  unfold getResvSet
  rw [ho, Res.ok_bind, entry_ext]
  refine ⟨fun c hb => ?_, fun hb => ⟨fun c hb2 hk => ?_, fun hb2 => ?_⟩⟩
  · rw [hb] at e1
    obtain ⟨c', hc, hv, e⟩ := e1
    cases hv
    rw [e]
    exact hevc_get hc kind i
  · rw [hb] at e1
    rw [hb2] at e2
    obtain ⟨n, c', hc, hv, e⟩ := e2
    cases hv
    simp only at e1
    rw [e1]
    simp only
    rw [e, Res.ok_bind]
    exact avc_get hc hk i
  · rw [hb] at e1
    rw [hb2] at e2
    simp only at e1 e2
    rw [e1]
    simp only
    rw [e2]
    rfl

/-- **C94, the length of NAL units.** -/
theorem c94_length (h : Codec C s)
    (ht : s.type ∈ [fcc 'a' 'v' 'c' '1', fcc 'h' 'v' 'c' '1', fcc 'v' 'v' 'c' '1', fcc 'v' 'v' 'i' '1', fcc 'r' 'e' 's' 'v']) :
    nalLength C s.bytes = match lengthIn s.kids with | some n => .ok n | none => .err .badData := by
  have hin : s.type ∈ [typeResv, fcc 'h' 'v' 'c' '1', typeAvc1] ++ typesVvc := by
    have : ∀ t ∈ [fcc 'a' 'v' 'c' '1', fcc 'h' 'v' 'c' '1', fcc 'v' 'v' 'c' '1', fcc 'v' 'v' 'i' '1', fcc 'r' 'e' 's' 'v'],
      t ∈ [typeResv, fcc 'h' 'v' 'c' '1', typeAvc1] ++ typesVvc := by decide
    exact this _ ht
  have ho := openAs_of (types := [typeResv, fcc 'h' 'v' 'c' '1', typeAvc1] ++ typesVvc) h.opened
  rw [if_pos hin] at ho
  have e1 := findVvn_eq h.boxes
  have e2 := findHevc_eq h.boxes
  have e3 := findAvc_eq h.boxes
  have e4 := findVvc_eq h.boxes
  unfold nalLength lengthIn
  rw [ho, Res.ok_bind, entry_ext]
  cases b1 : boxOf s.kids (fcc 'v' 'v' 'n' 'C') with
  | some k =>
    rw [b1] at e1
    obtain ⟨v, f, n, hn, hv, e⟩ := e1
    rw [e]
    simp only [Option.some_or, Option.bind_some, lengthOf, hv]
    rw [Nat.mod_eq_of_lt (by omega)]
  | none =>
    rw [b1] at e1
    simp only at e1
    rw [e1]
    simp only [Option.none_or]
    cases b2 : boxOf s.kids (fcc 'h' 'v' 'c' 'C') with
    | some k =>
      rw [b2] at e2
      obtain ⟨c, hc, hv, e⟩ := e2
      have := hc.head.lengthSize1
      rw [e]
      simp only [Option.some_or, Option.bind_some, lengthOf, hv]
      rw [Nat.mod_eq_of_lt (by omega)]
    | none =>
      rw [b2] at e2
      simp only at e2
      rw [e2]
      simp only [Option.none_or]
      cases b3 : boxOf s.kids (fcc 'a' 'v' 'c' 'C') with
      | some k =>
        rw [b3] at e3
        obtain ⟨n, c, hc, hv, e⟩ := e3
        rw [e]
        simp only [Option.some_or, Option.bind_some, lengthOf, hv]
      | none =>
        rw [b3] at e3
        simp only at e3
        rw [e3]
        simp only [Option.none_or]
        cases b4 : boxOf s.kids (fcc 'v' 'v' 'c' 'C') with
        | some k =>
          rw [b4] at e4
          obtain ⟨n, c, hc, hv, e⟩ := e4
          have := hc.lengthSize1
          rw [e]
          simp only [Res.ok_bind, Option.bind_some, lengthOf, hv]
          rw [Nat.mod_eq_of_lt (by omega)]
        | none =>
          rw [b4] at e4
          simp only at e4
          rw [e4]
          rfl

/-- **C94, other entries** are refused, whatever boxes they have. -/
theorem c94_refused (h : Codec C s) :
    (s.type ≠ fcc 'a' 'v' 'c' '1' → getAvc C s.bytes = .err .badParam ∧ ∀ k i, getAvcSet C s.bytes k i = .err .badParam) ∧
    (s.type ∉ [fcc 'h' 'v' 'c' '1', fcc 'h' 'v' 'c' '2'] → ∀ k i, getHevcSet C s.bytes k i = .err .badParam) ∧
    (s.type ∉ [fcc 'v' 'v' 'c' '1', fcc 'v' 'v' 'i' '1'] → ∀ k, getVvc C s.bytes k = .err .badParam ∧
      getVvcCount C s.bytes k = .err .badParam ∧ ∀ i, getVvcSet C s.bytes k i = .err .badParam) ∧
    (s.type ≠ fcc 'v' 'v' 's' '1' → getSubpic C s.bytes = .err .badParam) ∧
    (s.type ≠ fcc 'r' 'e' 's' 'v' → ∀ k i, getResvSet C s.bytes k i = .err .badParam) ∧
    (s.type ∉ [fcc 'a' 'v' 'c' '1', fcc 'h' 'v' 'c' '1', fcc 'v' 'v' 'c' '1', fcc 'v' 'v' 'i' '1', fcc 'r' 'e' 's' 'v'] →
      nalLength C s.bytes = .err .badParam) := by
  have ho : ∀ {types}, s.type ∉ types → openAs C .visual types s.bytes = .err .badParam := by
    intro types hn
    rw [openAs_of h.opened, if_neg hn]
  refine ⟨fun hn => ?_, fun hn k i => ?_, fun hn k => ?_, fun hn => ?_, fun hn k i => ?_, fun hn => ?_⟩
  · have hn : s.type ∉ [typeAvc1] := by simpa [typeAvc1] using hn
    unfold getAvc getAvcSet
    rw [ho hn]
    exact ⟨rfl, fun _ _ => rfl⟩
  · unfold getHevcSet
    rw [ho (types := typesHevc) hn]
    rfl
  · unfold getVvc getVvcCount getVvcSet
    rw [ho (types := typesVvc) hn]
    exact ⟨rfl, rfl, fun _ => rfl⟩
  · have hn : s.type ∉ [typeVvs1] := by simpa [typeVvs1] using hn
    unfold getSubpic
    rw [ho hn]
    rfl
  · have hn : s.type ∉ [typeResv] := by simpa [typeResv] using hn
    unfold getResvSet
    rw [ho hn]
    rfl
  · have hn : s.type ∉ [typeResv, fcc 'h' 'v' 'c' '1', typeAvc1] ++ typesVvc := by
      intro hc
      have : ∀ t ∈ [typeResv, fcc 'h' 'v' 'c' '1', typeAvc1] ++ typesVvc,
        t ∈ [fcc 'a' 'v' 'c' '1', fcc 'h' 'v' 'c' '1', fcc 'v' 'v' 'c' '1', fcc 'v' 'v' 'i' '1', fcc 'r' 'e' 's' 'v'] := by decide
      exact hn (this _ hc)
    unfold nalLength
    rw [ho hn]
    rfl

/-- The length of an entry for sub-pictures is refused where all others are asked for, and so is that of an entry 'hvc2',
though its sets are given. -/
theorem c94_not_length (h : Codec C s) :
    (∀ v f n, s.type = fcc 'v' 'v' 's' '1' → boxOf s.kids (fcc 'v' 'v' 'n' 'C') = some (vvnKid v f n) →
      lengthIn s.kids = some (n + 1) ∧ getSubpic C s.bytes = .ok (s.dref, n + 1) ∧ nalLength C s.bytes = .err .badParam) ∧
    (∀ c, s.type = fcc 'h' 'v' 'c' '2' → boxOf s.kids (fcc 'h' 'v' 'c' 'C') = some (hevcKid c) →
      (∀ k i, getHevcSet C s.bytes k i = setIn (c.arrays.take c.count) k i) ∧ nalLength C s.bytes = .err .badParam) := by
  have hr := (c94_refused h).2.2.2.2.2
  refine ⟨fun v f n ht hb => ⟨?_, c94_subpic h ht hb, hr (by rw [ht]; decide)⟩,
    fun c ht hb => ⟨c94_hevc h (.inr ht) hb, hr (by rw [ht]; decide)⟩⟩
  unfold lengthIn
  rw [hb]
  rfl

/-- **C94, no configuration.** -/
theorem c94_missing (h : Codec C s) :
    (s.type = fcc 'a' 'v' 'c' '1' → boxOf s.kids (fcc 'a' 'v' 'c' 'C') = none →
      getAvc C s.bytes = .err .badData ∧ ∀ k i, getAvcSet C s.bytes k i = .err .badData) ∧
    (s.type = fcc 'h' 'v' 'c' '1' ∨ s.type = fcc 'h' 'v' 'c' '2' → boxOf s.kids (fcc 'h' 'v' 'c' 'C') = none →
      ∀ k i, getHevcSet C s.bytes k i = .err .badData) ∧
    (s.type = fcc 'v' 'v' 'c' '1' ∨ s.type = fcc 'v' 'v' 'i' '1' → boxOf s.kids (fcc 'v' 'v' 'c' 'C') = none →
      ∀ k, getVvc C s.bytes k = .err .badData ∧ getVvcCount C s.bytes k = .err .badData ∧
        ∀ i, getVvcSet C s.bytes k i = .err .badData) ∧
    (s.type = fcc 'v' 'v' 's' '1' → boxOf s.kids (fcc 'v' 'v' 'n' 'C') = none → getSubpic C s.bytes = .err .badData) := by
  have ho : ∀ {types}, s.type ∈ types → openAs C .visual types s.bytes = .ok s.entry := by
    intro types hn
    rw [openAs_of h.opened, if_pos hn]
  have e1 := findVvn_eq h.boxes
  have e2 := findHevc_eq h.boxes
  have e3 := findAvc_eq h.boxes
  have e4 := findVvc_eq h.boxes
  refine ⟨fun ht hb => ?_, fun ht hb k i => ?_, fun ht hb k => ?_, fun ht hb => ?_⟩
  · rw [hb] at e3
    unfold getAvc getAvcSet
    rw [ho (by rw [ht]; decide), Res.ok_bind, entry_ext, show findAvc (vals s.kids) = _ from e3]
    refine ⟨rfl, fun k i => ?_⟩
    rw [Res.ok_bind, entry_ext, show findAvc (vals s.kids) = _ from e3]
    rfl
  · rw [hb] at e2
    unfold getHevcSet
    rw [ho (by rcases ht with ht | ht <;> rw [ht] <;> decide), Res.ok_bind, entry_ext, show findHevc (vals s.kids) = _ from e2]
    rfl
  · rw [hb] at e4
    unfold getVvc getVvcCount getVvcSet
    rw [ho (by rcases ht with ht | ht <;> rw [ht] <;> decide)]
    simp only [Res.ok_bind]
    rw [entry_ext, show findVvc (vals s.kids) = _ from e4]
    exact ⟨rfl, rfl, fun _ => rfl⟩
  · rw [hb] at e1
    unfold getSubpic
    rw [ho (by rw [ht]; decide), Res.ok_bind, entry_ext, show findVvn (vals s.kids) = _ from e1]
    rfl

/-! ## Adding -/

private theorem set_here {β : Type} (pre post : List β) (a b : β) : (pre ++ a :: post).set pre.length b = pre ++ b :: post := by
  simp

/-- **C94, sets of H.264 are added one by one** to a whole entry: each set is found after those before it, and nothing else
of the entry changes. -/
theorem c94_add_avc (h : Codec C s) (ht : s.type = fcc 'a' 'v' 'c' '1') {pre post : List (Kid (Cx α))} {c : Avc}
    (hk : s.kids = pre ++ avcKid c :: post) (hp : ∀ k ∈ pre, k.type ≠ fcc 'a' 'v' 'c' 'C') (adds : List (Nat × Bytes))
    (ha : ∀ a ∈ adds, a.1 = 1 ∨ a.1 = 2 ∨ a.1 = 3) (hf : Avc.Fits (Avc.plus c adds))
    (hz : ∀ d l, d ++ l = adds → 4096 + { s with kids := pre ++ avcKid (Avc.plus c d) :: post }.bytes.length < 4294967296) :
    runAll (addAvcSet C) s.bytes adds = .ok { s with kids := pre ++ avcKid (Avc.plus c adds) :: post }.bytes ∧
      Codec C { s with kids := pre ++ avcKid (Avc.plus c adds) :: post } := by
  have hty : s.Typed := by
    rcases h.opens with h | ⟨_, h⟩
    · exact h
    · exact absurd (by rw [ht]; decide) h
  have hcod : ∀ d l, d ++ l = adds → Codec C { s with kids := pre ++ avcKid (Avc.plus c d) :: post } := by
    intro d l e
    have hfd : Avc.Fits (Avc.plus c d) := Avc.Fits.prefix (b := l) (by rw [e]; exact hf)
    refine ⟨h.ok.exchange hk rfl (avc_survives hfd) (hz d l e), .inl hty, ?_⟩
    intro k hm
    have hall := h.boxes
    rw [hk] at hall
    simp only [List.mem_append, List.mem_cons] at hm
    rcases hm with hm | rfl | hm
    · exact hall k (by simp [hm])
    · exact .avc hfd
    · exact hall k (by simp [hm])
  have key : ∀ l d : List (Nat × Bytes), d ++ l = adds →
      runAll (addAvcSet C) { s with kids := pre ++ avcKid (Avc.plus c d) :: post }.bytes l =
        .ok { s with kids := pre ++ avcKid (Avc.plus c adds) :: post }.bytes := by
    intro l
    induction l with
    | nil => intro d e; rw [List.append_nil] at e; rw [e]; rfl
    | cons a l ih =>
      intro d e
      have e' : (d ++ [a]) ++ l = adds := by rw [← e]; simp
      have hc := hcod d _ e
      have hc' := hcod _ _ e'
      have hop := openAs_of (types := [typeAvc1]) (hc.ok.opened (d := .generic) hty)
      rw [if_pos (by show s.type ∈ _; rw [ht]; decide)] at hop
      have hfst := first_at (k := avcKid (Avc.plus c d)) hc.boxes hp
      have hadd : addAvcSet C { s with kids := pre ++ avcKid (Avc.plus c d) :: post }.bytes a =
          .ok { s with kids := pre ++ avcKid (Avc.plus c (d ++ [a])) :: post }.bytes := by
        unfold addAvcSet
        rw [hop, Res.ok_bind, entry_ext]
        have hfa : findAvc (vals (pre ++ avcKid (Avc.plus c d) :: post)) = .ok (pre.length, Avc.plus c d) := by
          unfold findAvc
          rw [show Avc.type = (avcKid (α := α) (Avc.plus c d)).type from (by decide : Avc.type = fcc 'a' 'v' 'c' 'C'), hfst]
          rfl
        rw [hfa, Res.ok_bind]
        have hpl : (Avc.plus c d).add a.1 a.2 = .ok (Avc.plus c (d ++ [a])) :=
          Avc.plus_add c d a.2 (by have := ha a (by rw [← e]; simp); simpa using this)
        simp only [hpl, Res.ok_bind]
        have hset : (vals (pre ++ avcKid (Avc.plus c d) :: post)).set pre.length (.avc (Avc.plus c (d ++ [a]))) =
            vals (pre ++ avcKid (Avc.plus c (d ++ [a])) :: post) := by
          have hl : pre.length = (vals pre).length := by simp [vals]
          have e1 : ∀ x, vals (pre ++ avcKid x :: post) = vals pre ++ .avc x :: vals post := by intro x; simp [vals, avcKid]
          rw [e1, e1, hl, set_here]
        rw [hset, store_setExt]
        exact hc'.ok.store
      show (addAvcSet C _ a).bind _ = _
      rw [hadd]
      exact ih _ e'
  refine ⟨?_, hcod adds [] (by simp)⟩
  have h0 : Avc.plus c [] = c := by simp [Avc.plus, setsOf]
  have := key adds [] rfl
  rw [h0, ← hk] at this
  exact this

/-- **C94, sets of H.266 are added one by one** to a whole entry. -/
theorem c94_add_vvc (h : Codec C s) (ht : s.type = fcc 'v' 'v' 'c' '1' ∨ s.type = fcc 'v' 'v' 'i' '1')
    {pre post : List (Kid (Cx α))} {c : Vvc} (hk : s.kids = pre ++ vvcKid c :: post)
    (hp : ∀ k ∈ pre, k.type ≠ fcc 'v' 'v' 'c' 'C') (adds : List (Nat × Bytes))
    (ha : ∀ a ∈ adds, a.1 ∈ [15, 16, 14, 12, 13, 17, 23]) (hf : ∀ d l, d ++ l = adds → Vvc.Fits (Vvc.plus c d))
    (hz : ∀ d l, d ++ l = adds → 4096 + { s with kids := pre ++ vvcKid (Vvc.plus c d) :: post }.bytes.length < 4294967296) :
    runAll (addVvcSet C) s.bytes adds = .ok { s with kids := pre ++ vvcKid (Vvc.plus c adds) :: post }.bytes ∧
      Codec C { s with kids := pre ++ vvcKid (Vvc.plus c adds) :: post } := by
  have hty : s.Typed := by
    rcases h.opens with h | ⟨_, h⟩
    · exact h
    · exact absurd (by rcases ht with ht | ht <;> rw [ht] <;> decide) h
  have hcod : ∀ d l, d ++ l = adds → Codec C { s with kids := pre ++ vvcKid (Vvc.plus c d) :: post } := by
    intro d l e
    refine ⟨h.ok.exchange hk rfl (vvc_survives (hf d l e)) (hz d l e), .inl hty, ?_⟩
    intro k hm
    have hall := h.boxes
    rw [hk] at hall
    simp only [List.mem_append, List.mem_cons] at hm
    rcases hm with hm | rfl | hm
    · exact hall k (by simp [hm])
    · exact .vvc (hf d l e)
    · exact hall k (by simp [hm])
  have hc0 : Vvc.Fits c := by
    have := h.boxes (vvcKid c) (by rw [hk]; simp)
    obtain ⟨c', hc, hv⟩ := this.cases.2.2.1 (by show fcc 'v' 'v' 'c' 'C' = _; decide)
    cases hv
    exact hc
  have key : ∀ l d : List (Nat × Bytes), d ++ l = adds →
      runAll (addVvcSet C) { s with kids := pre ++ vvcKid (Vvc.plus c d) :: post }.bytes l =
        .ok { s with kids := pre ++ vvcKid (Vvc.plus c adds) :: post }.bytes := by
    intro l
    induction l with
    | nil => intro d e; rw [List.append_nil] at e; rw [e]; rfl
    | cons a l ih =>
      intro d e
      have e' : (d ++ [a]) ++ l = adds := by rw [← e]; simp
      have hc := hcod d _ e
      have hc' := hcod _ _ e'
      have hop := openAs_of (types := typesVvc) (hc.ok.opened (d := .generic) hty)
      rw [if_pos (by show s.type ∈ _; rcases ht with ht | ht <;> rw [ht] <;> decide)] at hop
      have hfst := first_at (k := vvcKid (Vvc.plus c d)) hc.boxes hp
      have hadd : addVvcSet C { s with kids := pre ++ vvcKid (Vvc.plus c d) :: post }.bytes a =
          .ok { s with kids := pre ++ vvcKid (Vvc.plus c (d ++ [a])) :: post }.bytes := by
        unfold addVvcSet
        rw [hop, Res.ok_bind, entry_ext]
        have hfa : findVvc (vals (pre ++ vvcKid (Vvc.plus c d) :: post)) = .ok (pre.length, Vvc.plus c d) := by
          unfold findVvc
          rw [show Vvc.type = (vvcKid (α := α) (Vvc.plus c d)).type from (by decide : Vvc.type = fcc 'v' 'v' 'c' 'C'), hfst]
          rfl
        rw [hfa, Res.ok_bind]
        have hpl : (Vvc.plus c d).add a.1 a.2 = .ok (Vvc.plus c (d ++ [a])) :=
          Vvc.plus_add c d a.1 a.2 hc0.types (ha a (by rw [← e]; simp))
        simp only [hpl, Res.ok_bind]
        have hset : (vals (pre ++ vvcKid (Vvc.plus c d) :: post)).set pre.length (.vvc (Vvc.plus c (d ++ [a]))) =
            vals (pre ++ vvcKid (Vvc.plus c (d ++ [a])) :: post) := by
          have hl : pre.length = (vals pre).length := by simp [vals]
          have e1 : ∀ x, vals (pre ++ vvcKid x :: post) = vals pre ++ .vvc x :: vals post := by intro x; simp [vals, vvcKid]
          rw [e1, e1, hl, set_here]
        rw [hset, store_setExt]
        exact hc'.ok.store
      show (addVvcSet C _ a).bind _ = _
      rw [hadd]
      exact ih _ e'
  refine ⟨?_, hcod adds [] (by simp)⟩
  have h0 : Vvc.plus c [] = c := by
    have hg : c.arrays.map (Vvc.grow []) = c.arrays := by
      have : Vvc.grow [] = id := by funext a; simp [Vvc.grow, setsOf]
      rw [this, List.map_id]
    unfold Vvc.plus
    rw [hg, ← hc0.count]
  have := key adds [] rfl
  rw [h0, ← hk] at this
  exact this

/-! ## New descriptions -/

private theorem fresh_fits {w h : Nat} (hw : w < 65536) (hh : h < 65536) : Video.Fits { freshVideo with width := w, height := h } :=
  have ⟨_, _, _, a, b, c, d, e, _, f, g⟩ : Video.Fits freshVideo :=
    ⟨rfl, by decide, by decide, by decide, by decide, by decide, by decide, by decide, rfl, by decide, by decide⟩
  ⟨rfl, hw, hh, a, b, c, d, e, rfl, f, g⟩

private theorem fresh_codec {type dref w h : Nat} {k : Kid (Cx α)} (hd : dref < 65536) (hw : w < 65536) (hh : h < 65536)
    (ht : type ∈ visualTypes) (hg : GoodType type) (hs : Survives (codecs C) k.type k.val k.bytes) (hn : ¬ Dropped k.type)
    (hk : Known k) (hl : 8192 + k.bytes.length < 4294967296) : Codec C (fresh type dref w h k) := by
  refine ⟨⟨?_, ⟨rfl, hd⟩, fresh_fits hw hh, hg, ?_⟩, .inl ht, ?_⟩
  · intro x hx
    simp only [fresh, List.mem_singleton] at hx
    subst hx
    exact ⟨hs, hn⟩
  · have e := Video.length (fresh_fits hw hh)
    simp only [fresh, Sample.bytes, box_length, List.length_append, Kind.fields, Kind.last, wire, e, headWire, be_length,
      List.flatMap_cons, List.flatMap_nil, List.length_cons, List.length_nil]
    omega
  · intro x hx
    simp only [fresh, List.mem_singleton] at hx
    subst hx
    exact hk

private theorem put_size (w h : Nat) :
    Video.put { newVideo with width := w, height := h } = Video.put { freshVideo with width := w, height := h } := by
  unfold Video.put newVideo freshVideo
  simp only
  rw [put16_mod 4294967295]

private theorem store_fresh {type dref w h : Nat} {k : Kid (Cx α)} (hc : Codec C (fresh type dref w h k)) :
    store (codecs C) (entryOf type dref { newVideo with width := w, height := h } k.val) = .ok (fresh type dref w h k).bytes := by
  have := hc.ok.store
  rw [← this]
  simp only [store, entryOf, fresh, Sample.entry, vals, List.map_cons, List.map_nil, anySize, anySer, visual, Entry.serialize,
    put_size]
  rfl

private theorem fresh_box {type dref w h : Nat} (k : Kid (Cx α)) : boxOf (fresh type dref w h k).kids k.type = some k := by
  simp [boxOf, fresh]

/-- **C94, a new description of H.264** is read back as it was made. The size that the set tells is not in the entry: it has
the default one, 320 by 240. -/
theorem c94_new_avc {dref n : Nat} {sps : Bytes} {pps ext : Option Bytes} {c : Avc} (hd : dref < 65536)
    (hc : ParamSet.newAvc n sps pps ext = .ok c) (hf : Avc.Fits c) (hl : 8192 + (Avc.layout c).length < 4294967296) :
    newAvc C true dref n sps pps ext = .ok (fresh (fcc 'a' 'v' 'c' '1') dref 320 240 (avcKid (α := α) c)).bytes ∧
      Codec C (fresh (fcc 'a' 'v' 'c' '1') dref 320 240 (avcKid c)) ∧
      boxOf (fresh (fcc 'a' 'v' 'c' '1') dref 320 240 (avcKid (α := α) c)).kids (fcc 'a' 'v' 'c' 'C') = some (avcKid c) := by
  have hcod : Codec C (fresh (fcc 'a' 'v' 'c' '1') dref 320 240 (avcKid c)) :=
    fresh_codec hd (by omega) (by omega) (by decide) (by unfold GoodType; decide) (avc_survives hf)
      (by show ¬ Dropped (fcc 'a' 'v' 'c' 'C'); unfold Dropped; decide) (.avc hf) hl
  refine ⟨?_, hcod, fresh_box (avcKid c)⟩
  unfold newAvc
  rw [if_pos rfl, hc, Res.ok_bind, ← store_fresh hcod]
  rfl

/-- **C94, a new description of H.265**, with the size of the set, which the track gets too. -/
theorem c94_new_hevc {dref n w h : Nat} {sps : Bytes} {pps vps : Option Bytes} {c : Hevc} (hd : dref < 65536)
    (hw : w < 65536) (hh : h < 65536) (hc : ParamSet.newHevc n sps pps vps = .ok (c, w, h)) (hf : Hevc.Fits c)
    (hl : 8192 + (Hevc.layout c (c.arrays.take c.count)).length < 4294967296) :
    newHevc C true dref n sps pps vps =
        .ok ((fresh (fcc 'h' 'v' 'c' '1') dref w h (hevcKid (α := α) c)).bytes, w * 65536, h * 65536) ∧
      Codec C (fresh (fcc 'h' 'v' 'c' '1') dref w h (hevcKid c)) ∧
      boxOf (fresh (fcc 'h' 'v' 'c' '1') dref w h (hevcKid (α := α) c)).kids (fcc 'h' 'v' 'c' 'C') = some (hevcKid c) := by
  have hcod : Codec C (fresh (fcc 'h' 'v' 'c' '1') dref w h (hevcKid c)) :=
    fresh_codec hd hw hh (by decide) (by unfold GoodType; decide) (hevc_survives hf)
      (by show ¬ Dropped (fcc 'h' 'v' 'c' 'C'); unfold Dropped; decide) (.hevc hf) hl
  refine ⟨?_, hcod, fresh_box (hevcKid c)⟩
  unfold newHevc
  rw [if_pos rfl, hc, Res.ok_bind]
  show (store (codecs C) (entryOf _ dref { newVideo with width := w, height := h } (hevcKid c).val)).bind _ = _
  rw [store_fresh hcod]
  show Res.ok (_, w * 65536 % 4294967296, h * 65536 % 4294967296) = _
  rw [Nat.mod_eq_of_lt (by omega), Nat.mod_eq_of_lt (by omega)]

/-- **C94, a new description of H.266.** -/
theorem c94_new_vvc {dref n w h : Nat} {sps : Bytes} {pps : Option Bytes} {c : Vvc} (hd : dref < 65536)
    (hw : w < 65536) (hh : h < 65536) (hc : ParamSet.newVvc n sps pps = .ok (c, w, h)) (hf : Vvc.Fits c)
    (hl : 8192 + (Vvc.layout c).length < 4294967296) :
    newVvc C true dref n sps pps =
        .ok ((fresh (fcc 'v' 'v' 'c' '1') dref w h (vvcKid (α := α) c)).bytes, w * 65536, h * 65536) ∧
      Codec C (fresh (fcc 'v' 'v' 'c' '1') dref w h (vvcKid c)) ∧
      boxOf (fresh (fcc 'v' 'v' 'c' '1') dref w h (vvcKid (α := α) c)).kids (fcc 'v' 'v' 'c' 'C') = some (vvcKid c) := by
  have hcod : Codec C (fresh (fcc 'v' 'v' 'c' '1') dref w h (vvcKid c)) :=
    fresh_codec hd hw hh (by decide) (by unfold GoodType; decide) (vvc_survives hf)
      (by show ¬ Dropped (fcc 'v' 'v' 'c' 'C'); unfold Dropped; decide) (.vvc hf) hl
  refine ⟨?_, hcod, fresh_box (vvcKid c)⟩
  unfold newVvc
  rw [if_pos rfl, hc, Res.ok_bind]
  show (store (codecs C) (entryOf _ dref { newVideo with width := w, height := h } (vvcKid c).val)).bind _ = _
  rw [store_fresh hcod]
  show Res.ok (_, w * 65536 % 4294967296, h * 65536 % 4294967296) = _
  rw [Nat.mod_eq_of_lt (by omega), Nat.mod_eq_of_lt (by omega)]

/-- **C94, a new description of sub-pictures**: lengths of 1, 2 or 4 bytes, and what was given is read back. -/
theorem c94_new_subpic {dref w h n : Nat} (hd : dref < 65536) (hw : w < 65536) (hh : h < 65536) :
    (n = 1 ∨ n = 2 ∨ n = 4 →
      newSubpic C true dref w h n =
          .ok ((fresh (fcc 'v' 'v' 's' '1') dref w h (vvnKid (α := α) 0 0 (n - 1))).bytes, w * 65536, h * 65536) ∧
        getSubpic C (fresh (fcc 'v' 'v' 's' '1') dref w h (vvnKid (α := α) 0 0 (n - 1))).bytes = .ok (dref, n)) ∧
    (¬ (n = 1 ∨ n = 2 ∨ n = 4) → ∀ v, newSubpic C v dref w h n = .err .badParam) := by
  refine ⟨fun hn => ?_, fun hn v => if_pos (by omega)⟩
  have hcod : Codec C (fresh (fcc 'v' 'v' 's' '1') dref w h (vvnKid 0 0 (n - 1))) :=
    fresh_codec hd hw hh (by decide) (by unfold GoodType; decide)
      (vvn_survives (by omega) (by omega) (by omega))
      (by show ¬ Dropped (fcc 'v' 'v' 'n' 'C'); unfold Dropped; decide) (.vvn (by omega) (by omega) (by omega))
      (by simp only [vvnKid, fullBox, box_length, List.length_append, be_length]; omega)
  constructor
  · unfold newSubpic
    rw [if_neg (by omega), if_pos rfl]
    show (store (codecs C) (entryOf (fcc 'v' 'v' 's' '1') dref { newVideo with width := w, height := h }
      (vvnKid 0 0 (n - 1)).val)).bind _ = _
    rw [store_fresh hcod]
    show Res.ok (_, w * 65536 % 4294967296, h * 65536 % 4294967296) = _
    rw [Nat.mod_eq_of_lt (by omega), Nat.mod_eq_of_lt (by omega)]
  · rw [c94_subpic hcod rfl (fresh_box (vvnKid 0 0 (n - 1)))]
    show Res.ok (dref, n - 1 + 1) = _
    rw [Nat.sub_add_cancel (by omega)]

/-- A track that is not visual is refused. -/
theorem c94_not_visual (dref n w h : Nat) (sps : Bytes) (pps x : Option Bytes) :
    newAvc C false dref n sps pps x = .err .badParam ∧ newHevc C false dref n sps pps x = .err .badParam ∧
      newVvc C false dref n sps pps = .err .badParam ∧ newSubpic C false dref w h n = .err .badParam := by
  refine ⟨rfl, rfl, rfl, ?_⟩
  unfold newSubpic
  split <;> rfl

/-- **C94, from the sequence set to the answers**, for H.264: a set by the syntax of the standard (C65), a picture set and
the length give an entry that tells the length, one set of each kind, and the sets byte by byte. -/
theorem c94_made_avc (p : ParamSet.AvcSps) (hp : p.Ok) (h3 : p.high → p.chroma ≠ 3) {n dref : Nat} (hn : 1 ≤ n ∧ n ≤ 4)
    (hd : dref < 65536) {nal pps : Bytes} {rest : List Bool} (hnal : Bits.bitsOf nal = p.bits ++ rest) (h1 : nal.length < 65536)
    (h2 : pps.length < 65536) :
    ∃ b, newAvc C true dref n nal (some pps) none = .ok b ∧ getAvc C b = .ok (dref, n, 1, 1, 0) ∧ nalLength C b = .ok n ∧
      (∀ i, getAvcSet C b 1 i = answer [nal] i) ∧ ∀ i, getAvcSet C b 2 i = answer [pps] i := by
  have hc := ParamSet.c65_avc_partial p hp h3 n nal rest hnal (by omega) pps none
  have hf : Avc.Fits { ParamSet.avcConfig p n with sps := [nal], pps := [pps], spsext := none.toList } := by
    refine ⟨hp.profile, hp.compatibility, hp.level, hn, ?_, ?_, ?_, by simp, by simp, by simp, ?_, ?_⟩
    · have := hp.chroma; show (if p.high then p.chroma else 0) < 4; split <;> omega
    · have := hp.luma; show (if p.high then p.luma else 0) < 8; split <;> omega
    · have := hp.chromaDepth; show (if p.high then p.chromaDepth else 0) < 8; split <;> omega
    · intro b hb
      simp only [List.mem_singleton, Option.toList_none, List.not_mem_nil, or_false] at hb
      rcases hb with rfl | rfl <;> assumption
    · intro hh
      have e : ¬ p.high := by
        intro hp'
        have := ParamSet.high_eq p { ParamSet.avcConfig p n with sps := [nal], pps := [pps], spsext := none.toList } rfl
        rw [decide_eq_true hp', Avc.high_iff] at this
        exact hh this
      refine ⟨?_, ?_, ?_, rfl⟩
      · exact if_neg e
      · exact if_neg e
      · exact if_neg e
  have hl : (Avc.layout { ParamSet.avcConfig p n with sps := [nal], pps := [pps], spsext := none.toList }).length < 4294900000 := by
    rw [Avc.layout, box_length]
    by_cases hh : p.profile ∈ [100, 110, 122, 144] <;>
      simp only [Avc.record, ParamSet.avcConfig, hh, if_true, if_false, List.length_append, be_length, List.length_nil,
        List.flatMap_cons, List.flatMap_nil, nalBytes, Option.toList_none] <;> omega
  obtain ⟨a1, a2, a3⟩ := c94_new_avc (C := C) hd hc hf (by omega)
  obtain ⟨b1, b2⟩ := c94_avc a2 rfl a3
  refine ⟨_, a1, b1, ?_, fun i => b2 1 i (by omega), fun i => b2 2 i (by omega)⟩
  rw [c94_length a2 (by show fcc 'a' 'v' 'c' '1' ∈ _; decide)]
  rfl

/-! ## Examples -/

/-- An entry of restricted video with a configuration of H.264 before one of H.266. -/
def demo : Sample (Cx Tree.Tree) :=
  ⟨fcc 'r' 'e' 's' 'v', [0, 0, 0, 0, 0, 0], 1, .restricted { freshVideo with width := 640, height := 480 },
    [avcKid ⟨66, 0, 30, 4, true, [[103, 66]], [[104, 1], [104, 2]], 0, 0, 0, []⟩, vvcKid Vvc.sample]⟩

theorem demo_codec : Codec leafs demo := by
  have f1 : Avc.Fits ⟨66, 0, 30, 4, true, [[103, 66]], [[104, 1], [104, 2]], 0, 0, 0, []⟩ := by
    refine ⟨by decide, by decide, by decide, by decide, by decide, by decide, by decide, by decide, by decide, by decide, ?_, by simp⟩
    intro b hb
    simp only [List.mem_cons, List.not_mem_nil, or_false] at hb
    rcases hb with rfl | rfl | rfl <;> decide
  refine ⟨⟨?_, ⟨rfl, by decide⟩, fresh_fits (by omega) (by omega), by unfold GoodType; decide, by decide +kernel⟩, .inl ?_, ?_⟩
  · intro k hk
    simp only [demo, List.mem_cons, List.not_mem_nil, or_false] at hk
    rcases hk with rfl | rfl
    · exact ⟨avc_survives f1, by show ¬ Dropped (fcc 'a' 'v' 'c' 'C'); unfold Dropped; decide⟩
    · exact ⟨vvc_survives Vvc.sample_fits, by show ¬ Dropped (fcc 'v' 'v' 'c' 'C'); unfold Dropped; decide⟩
  · show demo.type ∈ [fcc 'r' 'e' 's' 'v']; decide
  · intro k hk
    simp only [demo, List.mem_cons, List.not_mem_nil, or_false] at hk
    rcases hk with rfl | rfl
    · exact .avc f1
    · exact .vvc Vvc.sample_fits

/-- The second picture set, and the length. -/
example : getResvSet leafs demo.bytes 2 2 = .ok [104, 2] ∧ getResvSet leafs demo.bytes 2 3 = .err .badParam ∧
    nalLength leafs demo.bytes = .ok 4 ∧ getAvc leafs demo.bytes = .err .badParam := by
  have h := (c94_restricted demo_codec rfl · ·)
  refine ⟨?_, ?_, ?_, ((c94_refused demo_codec).1 (by decide)).1⟩
  · exact ((h 2 2).2 (by decide +kernel)).1 _ rfl (by omega)
  · exact ((h 2 3).2 (by decide +kernel)).1 _ rfl (by omega)
  · rw [c94_length demo_codec (by decide)]
    rfl

/-- A set more in a new description of H.264. -/
example : ∃ b b', newAvc (C := leafs) true 1 4 [103, 66, 0, 30, 128] (some [104]) none = .ok b ∧
    runAll (addAvcSet leafs) b [(2, [104, 9])] = .ok b' ∧ getAvcSet leafs b' 2 2 = .ok [104, 9] ∧
    getAvcSet leafs b' 2 1 = .ok [104] ∧ getAvc leafs b' = .ok (1, 4, 1, 2, 0) := by
  have hc : ParamSet.newAvc 4 [103, 66, 0, 30, 128] (some [104]) none =
    .ok ⟨66, 0, 30, 4, true, [[103, 66, 0, 30, 128]], [[104]], 0, 0, 0, []⟩ := by decide +kernel
  have hf : ∀ l : List Bytes, l.length < 32 → (∀ b ∈ l, b.length < 65536) →
      Avc.Fits ⟨66, 0, 30, 4, true, [[103, 66, 0, 30, 128]], l, 0, 0, 0, []⟩ := by
    intro l h1 h2
    refine ⟨(by decide : 66 < 256), (by decide : 0 < 256), (by decide : 30 < 256), (by decide : 1 ≤ 4 ∧ 4 ≤ 4),
      (by decide : 0 < 4), (by decide : 0 < 8), (by decide : 0 < 8), (by decide : 1 < 32), h1, (by decide : 0 < 256), ?_,
      fun _ => ⟨rfl, rfl, rfl, rfl⟩⟩
    intro b hb
    simp only [List.mem_singleton, List.not_mem_nil, or_false] at hb
    rcases hb with rfl | hb
    · decide
    · exact h2 b hb
  obtain ⟨a1, a2, a3⟩ := c94_new_avc (C := leafs) (dref := 1) (by omega) hc (hf _ (by decide) (by decide)) (by decide +kernel)
  obtain ⟨b1, b2⟩ := c94_add_avc a2 rfl (pre := []) (post := []) rfl (fun k hk => nomatch hk) [(2, [104, 9])] (by simp)
    (hf [[104], [104, 9]] (by decide) (by decide)) (by
      intro d l e
      rcases d with _ | ⟨x, _ | ⟨y, d⟩⟩
      · decide +kernel
      · simp only [List.cons_append, List.nil_append, List.cons.injEq] at e
        rw [e.1]
        decide +kernel
      · simp at e)
  obtain ⟨d1, d2⟩ := c94_avc b2 rfl (c := ⟨66, 0, 30, 4, true, [[103, 66, 0, 30, 128]], [[104], [104, 9]], 0, 0, 0, []⟩) rfl
  exact ⟨_, _, a1, b1, d2 2 2 (by omega), d2 2 1 (by omega), d1⟩

end Verif.Cod
