import Verif.Spec.CodecDesc
import Verif.Lemmas.SampleDesc

/-!
# Lemmas on sample entries with decoder configurations
-/

namespace Verif.Cod

open Verif.Ent Verif.Sde Verif.Config

variable {α : Type} {C : Class α}

theorem avc_survives {c : Avc} (h : Avc.Fits c) : Survives (codecs C) (fcc 'a' 'v' 'c' 'C') (.avc c) (Avc.layout c) := by
  have r := Avc.c55_avc_round_trip c h
  have e := Avc.calcSize_eq h
  refine survives_roundTrip (f := Cx.avc) r ?_ ?_ ?_ rfl ?_ (by unfold GoodType; decide)
  · show sizeOr c.calcSize = _; rw [e]; rfl
  · show serOr c.calcSize _ = _; rw [e]; rfl
  · intro hd ht
    show (if _ then _ else _) = _
    rw [if_pos (by rw [ht]; decide)]
  · have h1 := nalsSize_le (l := c.sps) fun b hb => h.sets b (.inl hb)
    have h2 := nalsSize_le (l := c.pps) fun b hb => h.sets b (.inr (.inl hb))
    have h3 := nalsSize_le (l := c.spsext) fun b hb => h.sets b (.inr (.inr hb))
    have h4 := h.sps; have h5 := h.pps; have h6 := h.spsext
    by_cases hh : c.profile ∈ [100, 110, 122, 144] <;>
      simp only [Avc.record, hh, if_true, if_false, List.length_append, be_length, nals_length, List.length_nil] <;> omega

theorem hevc_length {c : Hevc} (h : Hevc.Fits c) : (Hevc.layout c (c.arrays.take c.count)).length < 4294967296 := by
  have hc := h.count; have hl := h.length
  have e : (c.arrays.take c.count).length = c.count := by simp [hl, hc]
  have := Hevc.arrs_le h.used
  rw [Hevc.arrs_length, e] at this
  rw [Hevc.layout_length, e]
  omega

theorem hevc_survives {c : Hevc} (h : Hevc.Fits c) :
    Survives (codecs C) (fcc 'h' 'v' 'c' 'C') (.hevc c) (Hevc.layout c (c.arrays.take c.count)) := by
  have r := Hevc.c55_hevc_round_trip c h
  have e := Hevc.calcSize_eq h
  have hl := hevc_length h
  rw [Hevc.layout, box_length] at hl
  refine survives_roundTrip (f := Cx.hevc) r ?_ ?_ ?_ rfl hl (by unfold GoodType; decide)
  · show sizeOr c.calcSize = _; rw [e]; rfl
  · show serOr c.calcSize _ = _; rw [e]; rfl
  · intro hd ht
    show (if _ then _ else if _ then _ else _) = _
    rw [if_neg (by rw [ht]; decide), if_pos (by rw [ht]; decide)]

theorem vvc_survives {c : Vvc} (h : Vvc.Fits c) : Survives (codecs C) (fcc 'v' 'v' 'c' 'C') (.vvc c) (Vvc.layout c) := by
  have r := Vvc.c55_vvc_round_trip_partial c h
  have e := Vvc.calcSize_eq h
  have hl := h.size
  rw [Vvc.layout, fullBox, box_length] at hl
  refine survives_roundTrip (f := Cx.vvc) r ?_ ?_ ?_ rfl hl (by unfold GoodType; decide)
  · show sizeOr c.calcSize = _; rw [e]; rfl
  · show serOr c.calcSize _ = _; rw [e]; rfl
  · intro hd ht
    show (if _ then _ else if _ then _ else if _ then _ else _) = _
    rw [if_neg (by rw [ht]; decide), if_neg (by rw [ht]; decide), if_pos (by rw [ht]; decide)]

theorem vvn_survives {v f n : Nat} (hv : v < 256) (hf : f < 2 ^ 24) (hn : n < 4) :
    Survives (codecs C) (fcc 'v' 'v' 'n' 'C') (.vvn v f n) (fullBox (fcc 'v' 'v' 'n' 'C') v f (be 1 n)) := by
  refine survives_roundTrip (f := fun p => .vvn p.1 p.2.1 p.2.2) (Vvn.c55_vvc_length_size v f n hv hf hn) rfl rfl ?_ rfl (by simp)
    (by unfold GoodType; decide)
  intro hd ht
  show (if _ then _ else if _ then _ else if _ then _ else if _ then _ else _) = _
  rw [if_neg (by rw [ht]; decide), if_neg (by rw [ht]; decide), if_neg (by rw [ht]; decide), if_pos (by rw [ht]; decide)]

/-! ## Opening -/

theorem Codec.opened {s : Sample (Cx α)} (h : Codec C s) : openEntry (codecs C) .visual s.bytes = .ok s.entry := by
  rcases h.opens with ht | ⟨⟨f, hf⟩, ht⟩
  · exact h.ok.opened ht _
  · exact h.ok.opened_visual hf (by rw [protos_iff]; exact ht)

theorem entry_dref (s : Sample (Cx α)) : anyDref s.entry = s.dref := by
  unfold Sample.entry anyDref
  cases s.kind <;> rfl

theorem openAs_of {d : Dflt} {types : List Nat} {s : Sample (Cx α)} (h : openEntry (codecs C) d s.bytes = .ok s.entry) :
    openAs C d types s.bytes = if s.type ∈ types then .ok s.entry else .err .badParam := by
  unfold openAs
  rw [h, Res.ok_bind, entry_type]

/-! ## Finding -/

theorem Known.type {k : Kid (Cx α)} (h : Known k) : k.val.type = k.type := by
  cases h <;> first | rfl | decide

theorem first_eq {ks : List (Kid (Cx α))} (h : ∀ k ∈ ks, Known k) (t : Nat) :
    (first t (vals ks)).map (·.2) = (boxOf ks t).map (·.val) := by
  induction ks with
  | nil => rfl
  | cons k ks ih =>
    have h1 := (h k (by simp)).type
    have ih := ih fun x hx => h x (by simp [hx])
    show (first t (k.val :: vals ks)).map _ = _
    unfold first boxOf
    rw [h1, List.find?_cons]
    by_cases c : k.type = t
    · simp [c]
    · rw [if_neg c]
      simp only [c, decide_false]
      rw [← boxOf, ← ih]
      cases first t (vals ks) <;> rfl

theorem first_at {pre post : List (Kid (Cx α))} {k : Kid (Cx α)} (h : ∀ x ∈ pre ++ k :: post, Known x)
    (hp : ∀ x ∈ pre, x.type ≠ k.type) : first k.type (vals (pre ++ k :: post)) = some (pre.length, k.val) := by
  induction pre with
  | nil =>
    show first _ (k.val :: vals post) = _
    unfold first
    rw [(h k (by simp)).type, if_pos rfl]
    rfl
  | cons a pre ih =>
    have h1 := (h a (by simp)).type
    have ih := ih (fun x hx => h x (by simp only [List.cons_append]; exact List.mem_cons_of_mem _ hx)) fun x hx => hp x (by simp [hx])
    show first _ (a.val :: vals (pre ++ k :: post)) = _
    unfold first
    rw [h1, if_neg (hp a (by simp)), ih]
    rfl

/-- What a box of a type can be. -/
theorem Known.cases {k : Kid (Cx α)} (h : Known k) :
    (k.type = Avc.type → ∃ c, Avc.Fits c ∧ k.val = .avc c) ∧
    (k.type = Hevc.type → ∃ c, Hevc.Fits c ∧ k.val = .hevc c) ∧
    (k.type = Vvc.type → ∃ c, Vvc.Fits c ∧ k.val = .vvc c) ∧
    (k.type = Vvn.type → ∃ v f n, n < 4 ∧ k.val = .vvn v f n) := by
  cases h with
  | avc h =>
    refine ⟨fun _ => ⟨_, h, rfl⟩, fun e => ?_, fun e => ?_, fun e => ?_⟩ <;> exact absurd e (by show ¬ fcc 'a' 'v' 'c' 'C' = _; decide)
  | hevc h =>
    refine ⟨fun e => ?_, fun _ => ⟨_, h, rfl⟩, fun e => ?_, fun e => ?_⟩ <;> exact absurd e (by show ¬ fcc 'h' 'v' 'c' 'C' = _; decide)
  | vvc h =>
    refine ⟨fun e => ?_, fun e => ?_, fun _ => ⟨_, h, rfl⟩, fun e => ?_⟩ <;> exact absurd e (by show ¬ fcc 'v' 'v' 'c' 'C' = _; decide)
  | vvn h1 h2 h3 =>
    refine ⟨fun e => ?_, fun e => ?_, fun e => ?_, fun _ => ⟨_, _, _, h3, rfl⟩⟩ <;> exact absurd e (by show ¬ fcc 'v' 'v' 'n' 'C' = _; decide)
  | other h =>
    refine ⟨fun e => ?_, fun e => ?_, fun e => ?_, fun e => ?_⟩ <;> (refine absurd ?_ h; simp only at e; rw [e]; decide)

theorem boxOf_mem {ks : List (Kid (Cx α))} {t : Nat} {k : Kid (Cx α)} (h : boxOf ks t = some k) : k ∈ ks ∧ k.type = t :=
  ⟨List.mem_of_find?_eq_some h, by simpa using List.find?_some h⟩

/-- The four searches, by the first box of the type. -/
theorem findAvc_eq {ks : List (Kid (Cx α))} (h : ∀ k ∈ ks, Known k) :
    match boxOf ks (fcc 'a' 'v' 'c' 'C') with
    | none => findAvc (vals ks) = .err .badData
    | some k => ∃ i c, Avc.Fits c ∧ k.val = .avc c ∧ findAvc (vals ks) = .ok (i, c) := by
  have e := first_eq h Avc.type
  have et : Avc.type = fcc 'a' 'v' 'c' 'C' := by decide
  unfold findAvc
  rw [← et]
  cases hb : boxOf ks Avc.type with
  | none =>
    rw [hb] at e
    cases hf : first Avc.type (vals ks) with
    | none => rfl
    | some p => rw [hf] at e; cases e
  | some k =>
    obtain ⟨hm, ht⟩ := boxOf_mem hb
    obtain ⟨c, hc, hv⟩ := (h k hm).cases.1 ht
    rw [hb] at e
    cases hf : first Avc.type (vals ks) with
    | none => rw [hf] at e; cases e
    | some p =>
      rw [hf] at e
      obtain ⟨i, x⟩ := p
      simp only [Option.map_some, Option.some.injEq, hv] at e
      exact ⟨i, c, hc, hv, by rw [e]⟩

theorem findHevc_eq {ks : List (Kid (Cx α))} (h : ∀ k ∈ ks, Known k) :
    match boxOf ks (fcc 'h' 'v' 'c' 'C') with
    | none => findHevc (vals ks) = .err .badData
    | some k => ∃ c, Hevc.Fits c ∧ k.val = .hevc c ∧ findHevc (vals ks) = .ok c := by
  have e := first_eq h Hevc.type
  have et : Hevc.type = fcc 'h' 'v' 'c' 'C' := by decide
  unfold findHevc
  rw [← et]
  cases hb : boxOf ks Hevc.type with
  | none =>
    rw [hb] at e
    cases hf : first Hevc.type (vals ks) with
    | none => rfl
    | some p => rw [hf] at e; cases e
  | some k =>
    obtain ⟨hm, ht⟩ := boxOf_mem hb
    obtain ⟨c, hc, hv⟩ := (h k hm).cases.2.1 ht
    rw [hb] at e
    cases hf : first Hevc.type (vals ks) with
    | none => rw [hf] at e; cases e
    | some p =>
      rw [hf] at e
      obtain ⟨i, x⟩ := p
      simp only [Option.map_some, Option.some.injEq, hv] at e
      exact ⟨c, hc, hv, by rw [e]⟩

theorem findVvc_eq {ks : List (Kid (Cx α))} (h : ∀ k ∈ ks, Known k) :
    match boxOf ks (fcc 'v' 'v' 'c' 'C') with
    | none => findVvc (vals ks) = .err .badData
    | some k => ∃ i c, Vvc.Fits c ∧ k.val = .vvc c ∧ findVvc (vals ks) = .ok (i, c) := by
  have e := first_eq h Vvc.type
  have et : Vvc.type = fcc 'v' 'v' 'c' 'C' := by decide
  unfold findVvc
  rw [← et]
  cases hb : boxOf ks Vvc.type with
  | none =>
    rw [hb] at e
    cases hf : first Vvc.type (vals ks) with
    | none => rfl
    | some p => rw [hf] at e; cases e
  | some k =>
    obtain ⟨hm, ht⟩ := boxOf_mem hb
    obtain ⟨c, hc, hv⟩ := (h k hm).cases.2.2.1 ht
    rw [hb] at e
    cases hf : first Vvc.type (vals ks) with
    | none => rw [hf] at e; cases e
    | some p =>
      rw [hf] at e
      obtain ⟨i, x⟩ := p
      simp only [Option.map_some, Option.some.injEq, hv] at e
      exact ⟨i, c, hc, hv, by rw [e]⟩

theorem findVvn_eq {ks : List (Kid (Cx α))} (h : ∀ k ∈ ks, Known k) :
    match boxOf ks (fcc 'v' 'v' 'n' 'C') with
    | none => findVvn (vals ks) = .err .badData
    | some k => ∃ v f n, n < 4 ∧ k.val = .vvn v f n ∧ findVvn (vals ks) = .ok n := by
  have e := first_eq h Vvn.type
  have et : Vvn.type = fcc 'v' 'v' 'n' 'C' := by decide
  unfold findVvn
  rw [← et]
  cases hb : boxOf ks Vvn.type with
  | none =>
    rw [hb] at e
    cases hf : first Vvn.type (vals ks) with
    | none => rfl
    | some p => rw [hf] at e; cases e
  | some k =>
    obtain ⟨hm, ht⟩ := boxOf_mem hb
    obtain ⟨v, f, n, hn, hv⟩ := (h k hm).cases.2.2.2 ht
    rw [hb] at e
    cases hf : first Vvn.type (vals ks) with
    | none => rw [hf] at e; cases e
    | some p =>
      rw [hf] at e
      obtain ⟨i, x⟩ := p
      simp only [Option.map_some, Option.some.injEq, hv] at e
      exact ⟨v, f, n, hn, hv, by rw [e]⟩

/-! ## Sets -/

theorem avc_get {c : Avc} (h : Avc.Fits c) {kind : Nat} (hk : kind < 4) (i : Nat) : c.get kind i = avcSetIn c kind i := by
  have h1 := h.sps; have h2 := h.pps; have h3 := h.spsext
  unfold Avc.get
  match kind, hk with
  | 0, _ => rfl
  | 1, _ => exact nth_eq (by omega) i
  | 2, _ => exact nth_eq (by omega) i
  | 3, _ => exact nth_eq (by omega) i

theorem hevc_get {c : Hevc} (h : Hevc.Fits c) (nalu i : Nat) : c.get nalu i = setIn (c.arrays.take c.count) nalu i := by
  have hc := h.count; have hl := h.length
  unfold Hevc.get setIn setsIn
  rw [if_neg (by omega)]
  have e : (fun a : Arr => a.type == nalu) = fun a => decide (a.type = nalu) := by funext a; rfl
  rw [e]
  cases hf : (c.arrays.take c.count).find? fun a => decide (a.type = nalu) with
  | none => rfl
  | some a =>
    have := (h.used a (List.mem_of_find?_eq_some hf)).count
    exact nth_eq (by omega) i

theorem vvc_get {c : Vvc} (h : Vvc.Fits c) (nalu i : Nat) : c.get nalu i = setIn c.arrays nalu i := by
  unfold Vvc.get setIn setsIn
  have e : (fun a : Arr => a.type == nalu) = fun a => decide (a.type = nalu) := by funext a; rfl
  rw [e]
  cases hf : c.arrays.find? fun a => decide (a.type = nalu) with
  | none => rfl
  | some a =>
    have := (h.arrays a (List.mem_of_find?_eq_some hf)).count
    exact nth_eq (by omega) i

theorem vvc_count (c : Vvc) (nalu : Nat) :
    countOf c nalu = match setsIn c.arrays nalu with | some l => .ok l.length | none => .err .badParam := by
  unfold countOf setsIn
  have e : (fun a : Arr => a.type == nalu) = fun a => decide (a.type = nalu) := by funext a; rfl
  rw [e]
  cases c.arrays.find? fun a => decide (a.type = nalu) <;> rfl

end Verif.Cod
