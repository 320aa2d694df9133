import Verif.Spec.Iods
import Verif.Lemmas.OdFrame

/-!
# Lemmas for the initial object descriptor of a movie
-/

namespace Verif.Od

open Verif.Descr

/-! ## Asking -/

/-- With stream descriptors behind the others. -/
def withEs (l : List Es) : Any → Any
  | .od d => .od { d with es := d.es ++ l }
  | .iod d => .iod { d with es := d.es ++ l }
  | .item x => .item x

theorem withEs_nil (d : Any) : withEs [] d = d := by cases d <;> simp [withEs]

theorem withEs_add (d : Any) (e : Es) (l : List Es) : withEs l (anyAdd d (.es e)) = withEs (e :: l) d := by
  cases d <;> simp [withEs, anyAdd, odAdd, iodAdd]

theorem addStreams_ok {v : Mov} {sl : Option Sl} {F : Nat → Es} {ids : List Nat}
    (h : ∀ id ∈ ids, makeESD v sl id = .ok (F id)) :
    ∀ d, addStreams v sl ids d = (withEs (ids.map F) d, .ok ()) := by
  induction ids with
  | nil => intro d; rw [List.map_nil, withEs_nil]; rfl
  | cons id ids ih =>
    intro d
    unfold addStreams
    rw [h id (by simp)]
    simp only
    rw [ih (fun i hi => h i (by simp [hi])), withEs_add, List.map_cons]

/-- Whatever was added, only the stream descriptors changed. -/
theorem addStreams_gives {v : Mov} {sl : Option Sl} {ids : List Nat} :
    ∀ {d d' : Any} {r}, addStreams v sl ids d = (d', r) → ∃ l, d' = withEs l d := by
  induction ids with
  | nil =>
    intro d d' r h
    simp only [addStreams, Prod.mk.injEq] at h
    exact ⟨[], by rw [withEs_nil]; exact h.1.symm⟩
  | cons id ids ih =>
    intro d d' r h
    unfold addStreams at h
    split at h
    · obtain ⟨l, rfl⟩ := ih h
      exact ⟨_, withEs_add _ _ _⟩
    · simp only [Prod.mk.injEq] at h
      exact ⟨[], by rw [withEs_nil]; exact h.1.symm⟩
    · simp only [Prod.mk.injEq] at h
      exact ⟨[], by rw [withEs_nil]; exact h.1.symm⟩

theorem uncovered_iod {v : Mov} {sl : Option Sl} {d : Iod} {s : Iods} {bs : Bytes}
    (h : uncovered v sl 0x02 0x10 ⟨.iod d, false⟩ = (s, .ok bs)) : s = ⟨.iod { d with tag := 0x10, es := [] }, false⟩ := by
  unfold uncovered at h
  simp only [Bool.false_eq_true, if_false] at h
  split at h
  · simp at h
  · simp at h
  · rename_i d' hd
    obtain ⟨l, rfl⟩ := addStreams_gives hd
    split at h
    · simp at h
    · simp at h
    · simp only [Prod.mk.injEq] at h
      rw [← h.1]
      rfl

theorem uncovered_od {v : Mov} {sl : Option Sl} {given kept : Nat} {d : Od} {s : Iods} {bs : Bytes}
    (h : uncovered v sl given kept ⟨.od d, false⟩ = (s, .ok bs)) :
    ∃ l, s = ⟨.od { d with tag := kept, es := [] }, false⟩ ∧
      runW (odSize { d with tag := given, es := d.es ++ l, inc := [] }) (putOd { d with tag := given, es := d.es ++ l, inc := [] }) =
        .ok bs := by
  unfold uncovered at h
  simp only [Bool.false_eq_true, if_false] at h
  split at h
  · simp at h
  · simp at h
  · rename_i d' hd
    obtain ⟨l, rfl⟩ := addStreams_gives hd
    split at h
    · simp at h
    · simp at h
    · rename_i b hb
      simp only [Prod.mk.injEq, Res.ok.injEq] at h
      refine ⟨l, ?_, ?_⟩
      · rw [← h.1]; rfl
      · rw [← h.2]; exact hb

theorem putAll_behind {F f : Nat → Es} {ids : List Nat} (h : ∀ id ∈ ids, esNorm (F id) = f id) (a : List Es) :
    putAll esSize putEs (a ++ ids.map F) = putAll esSize putEs (a ++ ids.map f) := by
  have e : ids.map f = (ids.map F).map esNorm := by
    rw [List.map_map]
    exact List.map_congr_left fun id hi => (h id hi).symm
  induction a with
  | nil => rw [List.nil_append, List.nil_append, e, putAll_map esSize_norm putEs_norm]
  | cons x a ih =>
    unfold putAll at ih ⊢
    rw [List.cons_append, List.cons_append]
    unfold W.each
    rw [ih]

theorem sizeAll_behind {F f : Nat → Es} {ids : List Nat} (h : ∀ id ∈ ids, esNorm (F id) = f id) (a : List Es) :
    sizeAll esSize (a ++ ids.map F) = sizeAll esSize (a ++ ids.map f) := by
  have e : ids.map f = (ids.map F).map esNorm := by
    rw [List.map_map]
    exact List.map_congr_left fun id hi => (h id hi).symm
  have e2 := sizeAll_map (s := esSize) (t := esSize) (g := esNorm) esSize_norm (ids.map F)
  unfold sizeAll at e2 ⊢
  rw [e, List.map_append, List.map_append, List.sum_append, List.sum_append, e2]

/-- The descriptions, and what is written for them. -/
theorem descriptions {v : Mov} {sl : Option Sl} {f : Nat → Es} {ids : List Nat} (h : ∀ id ∈ ids, Shows v sl id (f id)) :
    ∃ F : Nat → Es, ∀ id ∈ ids, makeESD v sl id = .ok (F id) ∧ esNorm (F id) = f id := by
  refine ⟨fun id => match makeESD v sl id with | .ok e => e | _ => f id, fun id hi => ?_⟩
  obtain ⟨E, h1, h2, _⟩ := makeESD_shows (h id hi)
  simp only [h1]
  exact ⟨trivial, h2⟩

theorem openIod_ok {f : Nat → Es} {d : Iod} (hd : IodOk d) (hf : ∀ id ∈ d.inc, EsOk (f id)) : IodOk (openIod f d) where
  tag := .inl rfl
  id := hd.id
  inline := hd.inline
  url := hd.url
  profiles := hd.profiles
  items := by
    intro i hi
    simp only [openIod, Iod.items, List.map_nil, List.nil_append, List.map_append, List.map_map, List.mem_append, List.mem_map,
      Function.comp] at hi
    rcases hi with (⟨e, he, rfl⟩ | ⟨id, hi, rfl⟩) | ⟨x, hx, rfl⟩ | ⟨x, hx, rfl⟩ | hi
    · exact hd.items (.es e) (by simp [Iod.items, he])
    · exact hf id hi
    · exact hd.items (.child (.plain x)) (by simp [Iod.items, hx])
    · exact hd.items (.child (.ptr x)) (by simp [Iod.items, hx])
    · exact hd.items i (by simp [Iod.items, hi])
  oci := hd.oci
  ext := hd.ext

theorem openOd_ok {f : Nat → Es} {d : Od} (hd : OdOk d) (hf : ∀ id ∈ d.inc, EsOk (f id)) : OdOk (openOd f d) := by
  refine od_ok_of hd (.inl rfl) rfl rfl ?_ rfl rfl
  intro i hi
  simp only [openOd, Od.items, List.map_nil, List.nil_append, List.map_append, List.map_map, List.mem_append, List.mem_map,
    Function.comp] at hi
  rcases hi with (⟨e, he, rfl⟩ | ⟨id, hi, rfl⟩) | ⟨x, hx, rfl⟩ | ⟨x, hx, rfl⟩ | ⟨x, hx, rfl⟩ | hi
  · exact hd.items (.es e) (by simp [Od.items, he])
  · exact hf id hi
  · exact hd.items (.ref x) (by simp [Od.items, hx])
  · exact hd.items (.child (.plain x)) (by simp [Od.items, hx])
  · exact hd.items (.child (.ptr x)) (by simp [Od.items, hx])
  · exact hd.items i (by simp [Od.items, hi])

theorem uncovered_iod_gives {v : Mov} {sl : Option Sl} {f : Nat → Es} {d : Iod} (hd : IodOk d)
    (hf : ∀ id ∈ d.inc, Shows v sl id (f id) ∧ EsOk (f id)) (hl : (iodBytes (openIod f d)).length < 2 ^ 28) :
    uncovered v sl 0x02 0x10 ⟨.iod d, false⟩ =
      (⟨.iod { d with tag := 0x10, es := [] }, false⟩, .ok (iodBytes (openIod f d))) := by
  obtain ⟨F, hF⟩ := descriptions fun id hi => (hf id hi).1
  have hw := (written_iod (openIod_ok hd fun id hi => (hf id hi).2) (any_payload_lt (a := .iod (openIod f d)) hl)).1
  have e1 : iodSize { d with tag := 0x02, es := d.es ++ d.inc.map F, inc := [] } = iodSize (openIod f d) := by
    unfold iodSize openIod
    simp only [sizeAll_behind (fun id hi => (hF id hi).2)]
  have e2 : putIod { d with tag := 0x02, es := d.es ++ d.inc.map F, inc := [] } = putIod (openIod f d) := by
    unfold putIod
    rw [e1]
    unfold openIod
    simp only [putAll_behind (fun id hi => (hF id hi).2)]
  unfold uncovered
  simp only [Bool.false_eq_true, if_false, Any.incs]
  rw [addStreams_ok fun id hi => (hF id hi).1]
  simp only [withEs, Any.uncover, anySize, putAny]
  rw [e1, e2, hw]
  rfl

theorem uncovered_od_gives {v : Mov} {sl : Option Sl} {f : Nat → Es} {d : Od} (hd : OdOk d)
    (hf : ∀ id ∈ d.inc, Shows v sl id (f id) ∧ EsOk (f id)) (hl : (odBytes (openOd f d)).length < 2 ^ 28) :
    uncovered v sl 0x01 0x11 ⟨.od d, false⟩ =
      (⟨.od { d with tag := 0x11, es := [] }, false⟩, .ok (odBytes (openOd f d))) := by
  obtain ⟨F, hF⟩ := descriptions fun id hi => (hf id hi).1
  have hw := (written_od (openOd_ok hd fun id hi => (hf id hi).2) (any_payload_lt (a := .od (openOd f d)) hl)).1
  have e1 : odSize { d with tag := 0x01, es := d.es ++ d.inc.map F, inc := [] } = odSize (openOd f d) := by
    unfold odSize openOd
    simp only [sizeAll_behind (fun id hi => (hF id hi).2)]
  have e2 : putOd { d with tag := 0x01, es := d.es ++ d.inc.map F, inc := [] } = putOd (openOd f d) := by
    unfold putOd
    rw [e1]
    unfold openOd
    simp only [putAll_behind (fun id hi => (hF id hi).2)]
  unfold uncovered
  simp only [Bool.false_eq_true, if_false, Any.incs]
  rw [addStreams_ok fun id hi => (hF id hi).1]
  simp only [withEs, Any.uncover, anySize, putAny]
  rw [e1, e2, hw]
  rfl

/-! ## Descriptors that are added -/

theorem plain_refused : ∀ t < 256, ownClass t = false → (t ∈ refused ↔ t ∈ [0, 5, 0x0B, 0x0C, 0x0E, 0x0F]) := by decide +kernel

theorem refused_iff {i : Item} (hi : ItemOk i) : itemTag i ∈ refused ↔ ¬ Extra i := by
  cases i with
  | es e => exact iff_of_true (show 3 ∈ refused by decide) (fun h => h)
  | inc id => exact iff_of_true (show 0x0E ∈ refused by decide) (fun h => h)
  | ref i => exact iff_of_true (show 0x0F ∈ refused by decide) (fun h => h)
  | child c =>
    cases c with
    | dec d => exact iff_of_true (show 4 ∈ refused by decide) (fun h => h)
    | sl d => exact iff_of_true (show 6 ∈ refused by decide) (fun h => h)
    | ptr p => exact iff_of_false (show 0x0A ∉ refused by decide) (fun h => h trivial)
    | plain x =>
      have := plain_refused x.tag hi.1 hi.2
      show x.tag ∈ refused ↔ ¬ x.tag ∉ _
      rw [Decidable.not_not]
      exact this

theorem addDesc_gives {i : Item} {s : Iods} (hi : ItemOk i) (hl : (itemBytes i).length < 2 ^ 28) :
    addDesc (itemBytes i) (some s) =
      if ¬ Extra i then .err .badParam
      else if s.desc.tagOf = 0x10 ∨ s.desc.tagOf = 0x11 then .ok (some { s with desc := anyAdd s.desc i })
      else .err .invalidMedia := by
  have hp := parses_any (a := .item i) hi (any_payload_lt (a := .item i) hl) [] 0
  simp only [List.append_nil] at hp
  unfold addDesc
  simp only
  rw [show itemBytes i = anyBytes (.item i) from rfl, hp]
  simp only [readAny]
  by_cases h : Extra i
  · rw [if_neg (fun hm => (refused_iff hi).1 hm h), if_neg (not_not_intro h)]
  · rw [if_pos ((refused_iff hi).2 h), if_pos h]

/-! ## Sessions -/

/-- What steps make of a descriptor. -/
def grown (d : Iod) (ops : List Op) : Iod :=
  { d with
    inline := ops.foldl (fun n => fun | .inline f => if f = 0 then 0 else 1 | _ => n) d.inline
    inc := d.inc ++ tracksOf ops
    ptr := d.ptr ++ (extrasOf ops).filterMap fun | .child (.ptr p) => some p | _ => none
    ext := d.ext ++ (extrasOf ops).filter fun | .child (.ptr _) => false | _ => true }

theorem grown_nil (d : Iod) : grown d [] = d := by simp [grown, tracksOf, extrasOf]

theorem step_track {d : Iod} {id : Nat} {s : Option Iods} (h : step (.track id) (some ⟨.iod d, false⟩) = .ok s)
    (ops : List Op) : ∃ d', s = some ⟨.iod d', false⟩ ∧ d'.tag = d.tag ∧ d'.es = d.es ∧ grown d' ops = grown d (.track id :: ops) := by
  refine ⟨{ d with inc := d.inc ++ [id] }, ?_, rfl, rfl, ?_⟩
  · have : step (.track id) (some ⟨.iod d, false⟩) = .ok (some ⟨.iod { d with inc := d.inc ++ [id] }, false⟩) := rfl
    rw [this] at h
    cases h
    rfl
  · simp [grown, tracksOf, extrasOf]

theorem step_inline {d : Iod} {f : Nat} {s : Option Iods} (ht : d.tag = 0x10)
    (h : step (.inline f) (some ⟨.iod d, false⟩) = .ok s)
    (ops : List Op) : ∃ d', s = some ⟨.iod d', false⟩ ∧ d'.tag = d.tag ∧ d'.es = d.es ∧ grown d' ops = grown d (.inline f :: ops) := by
  refine ⟨{ d with inline := if f ≠ 0 then 1 else 0 }, ?_, rfl, rfl, ?_⟩
  · unfold step setInline Any.tagOf at h
    simp only [ht] at h
    rw [if_neg (by decide)] at h
    simp only [Res.ok.injEq] at h
    simp only [ht]; exact h.symm
  · have : (if f ≠ 0 then 1 else 0) = if f = 0 then 0 else 1 := by by_cases h : f = 0 <;> simp [h]
    simp only [this]
    simp [grown, tracksOf, extrasOf]

theorem step_desc {d : Iod} {i : Item} {s : Option Iods} (ht : d.tag = 0x10) (hi : ItemOk i) (hl : (itemBytes i).length < 2 ^ 28)
    (h : step (.desc i) (some ⟨.iod d, false⟩) = .ok s)
    (ops : List Op) : ∃ d', s = some ⟨.iod d', false⟩ ∧ d'.tag = d.tag ∧ d'.es = d.es ∧ grown d' ops = grown d (.desc i :: ops) := by
  unfold step at h
  simp only [addDesc_gives hi hl] at h
  by_cases he : Extra i
  · rw [if_neg (not_not_intro he), if_pos (.inl ht)] at h
    simp only [Res.ok.injEq] at h
    subst h
    have hx : extrasOf (.desc i :: ops) = i :: extrasOf ops := by simp [extrasOf, he]
    have ht' : tracksOf (.desc i :: ops) = tracksOf ops := rfl
    cases i with
    | child c =>
      cases c with
      | ptr p =>
        refine ⟨_, rfl, rfl, rfl, ?_⟩
        unfold grown
        rw [hx, ht']
        simp [iodAdd]
      | plain x =>
        refine ⟨_, rfl, rfl, rfl, ?_⟩
        unfold grown
        rw [hx, ht']
        simp [iodAdd]
      | dec _ => exact absurd he id
      | sl _ => exact absurd he id
    | es _ => exact absurd he id
    | inc _ => exact absurd he id
    | ref _ => exact absurd he id
  · rw [if_pos he] at h
    simp only [Res.ok.injEq] at h
    subst h
    have hx : extrasOf (.desc i :: ops) = extrasOf ops := by simp [extrasOf, he]
    have ht' : tracksOf (.desc i :: ops) = tracksOf ops := rfl
    refine ⟨d, rfl, rfl, rfl, ?_⟩
    unfold grown
    rw [hx, ht']
    rfl

theorem step_ask {d : Iod} {v : Mov} {sl : Option Sl} {s : Option Iods} (ht : d.tag = 0x10) (he : d.es = [])
    (h : step (.ask v sl) (some ⟨.iod d, false⟩) = .ok s)
    (ops : List Op) : ∃ d', s = some ⟨.iod d', false⟩ ∧ d'.tag = d.tag ∧ d'.es = d.es ∧ grown d' ops = grown d (.ask v sl :: ops) := by
  refine ⟨d, ?_, rfl, rfl, rfl⟩
  unfold step movieDescriptor at h
  simp only [Any.tagOf, ht] at h
  rw [if_neg (by decide)] at h
  rcases hu : uncovered v sl 0x02 0x10 ⟨.iod d, false⟩ with ⟨s', r⟩
  rw [hu] at h
  cases r with
  | ok bs =>
    simp only [Res.ok.injEq] at h
    rw [← h, uncovered_iod hu]
    have : ({ d with tag := 0x10, es := [] } : Iod) = d := by cases d; simp only at ht he; subst ht he; rfl
    rw [this]
  | err e => cases h
  | ub => cases h

theorem steps_gives {ops : List Op} (ho : ∀ i, Op.desc i ∈ ops → ItemOk i ∧ (itemBytes i).length < 2 ^ 28) :
    ∀ {d : Iod} {s : Option Iods}, d.tag = 0x10 → d.es = [] → steps ops (some ⟨.iod d, false⟩) = .ok s →
      s = some ⟨.iod (grown d ops), false⟩ := by
  induction ops with
  | nil =>
    intro d s _ _ h
    rw [grown_nil]
    cases h
    rfl
  | cons o ops ih =>
    intro d s ht he h
    unfold steps at h
    cases h1 : step o (some ⟨.iod d, false⟩) with
    | err e => rw [h1] at h; cases h
    | ub => rw [h1] at h; cases h
    | ok s1 =>
      rw [h1, bind_ok] at h
      have hd : ∃ d', s1 = some ⟨.iod d', false⟩ ∧ d'.tag = d.tag ∧ d'.es = d.es ∧ grown d' ops = grown d (o :: ops) := by
        cases o with
        | track id => exact step_track h1 ops
        | desc i => exact step_desc ht (ho i (by simp)).1 (ho i (by simp)).2 h1 ops
        | inline f => exact step_inline ht h1 ops
        | ask v sl => exact step_ask ht he h1 ops
      obtain ⟨d', rfl, h2, h3, h4⟩ := hd
      rw [ih (fun i hi => ho i (by simp [hi])) (h2.trans ht) (h3.trans he) h, h4]

end Verif.Od
