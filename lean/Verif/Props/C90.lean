import Verif.Lemmas.SampleDesc

/-!
# C90: sample descriptions built and edited in handles

`s.bytes` is the content of a handle. `s.Ok` tells that its parts can be written and read, `s.Typed` that its type is one of
its kind. `C` has the classes of the boxes that the functions here do not make.
-/

namespace Verif.Sde

open Verif.Ent
open Verif.Descr hiding audio audio_ok insert
open Verif.Rows (Damr)

variable {α : Type} {C : Class α} {s : Sample (Bx α)}

/-! ## Type -/

/-- The type of the description is that of its box. -/
theorem c90_get_type (hs : s.Ok (boxes C)) (ht : s.Typed) : getType C s.bytes = .ok s.type := by
  unfold getType
  rw [hs.opened ht]
  show Res.ok (anyType s.entry) = _
  rw [entry_type]

private theorem mask {t : Nat} : t / 256 * 256 + 32 = fcc 'm' 'p' '4' ' ' ↔ t / 256 = fcc 'm' 'p' '4' ' ' / 256 := by
  have : fcc 'm' 'p' '4' ' ' = 7172148 * 256 + 32 := by decide
  rw [this]
  omega

private theorem setType_mp4 {input : Bytes} {x : Any (Bx α)} (h : openEntry (boxes C) .generic input = .ok x) {t : Nat}
    (h4 : t / 256 = fcc 'm' 'p' '4' ' ' / 256) : setType C input t = store (boxes C) (setAnyType t x) := by
  unfold setType
  rw [h, Res.ok_bind]
  simp only
  rw [if_neg (by rw [Decidable.not_not]; exact mask.2 h4)]

private theorem setType_other {input : Bytes} {x : Any (Bx α)} (h : openEntry (boxes C) .generic input = .ok x) {t : Nat}
    (h4 : t / 256 ≠ fcc 'm' 'p' '4' ' ' / 256) :
    setType C input t = (findAt typeEsds (anyExt (setAnyType t x))).bind fun i =>
      (deleteBox typeEsds (((anyExt (setAnyType t x)).map Cell.live).set i .freed)).bind fun l =>
        store (boxes C) (setAnyExt (l.filterMap fun | .live b => some b | .freed => none) (setAnyType t x)) := by
  unfold setType
  rw [h, Res.ok_bind]
  simp only
  rw [if_pos (fun h => h4 (mask.1 h))]
  rfl

/-- A type that begins with `mp4` is set, and nothing else changes. -/
theorem c90_type (hs : s.Ok (boxes C)) (ht : s.Typed) {t : Nat} (hg : GoodType t)
    (h4 : t / 256 = fcc 'm' 'p' '4' ' ' / 256) :
    setType C s.bytes t = .ok { s with type := t }.bytes := by
  have hs' : { s with type := t }.Ok (boxes C) := by
    refine ⟨hs.family, hs.head, hs.fits, hg, ?_⟩
    have := hs.size
    simp only [Sample.bytes, box_length] at this ⊢
    exact this
  rw [setType_mp4 (hs.opened ht _) h4, entry_setType]
  exact hs'.store

/-- Any other type: if there is an elementary stream descriptor, its box is read after it was given back. If there is none,
the type is not set. -/
theorem c90_not_type (hs : s.Ok (boxes C)) (ht : s.Typed) {t : Nat} (h4 : t / 256 ≠ fcc 'm' 'p' '4' ' ' / 256) :
    setType C s.bytes t =
      if ∃ k ∈ s.kids, k.type = fcc 'e' 's' 'd' 's' then .ub else .err .notFound := by
  have e2 : typeEsds = fcc 'e' 's' 'd' 's' := by decide
  rw [setType_other (hs.opened ht _) h4, entry_setType, entry_ext]
  by_cases h : ∃ k ∈ s.kids, k.type = fcc 'e' 's' 'd' 's'
  · rw [if_pos h]
    have key : ∀ l : List (Bx α), (∃ b ∈ l, b.type = typeEsds) →
        ∃ pre b post, l = pre ++ b :: post ∧ b.type = typeEsds ∧ ∀ x ∈ pre, x.type ≠ typeEsds := by
      intro l
      induction l with
      | nil => intro ⟨b, hb, _⟩; cases hb
      | cons a l ih =>
        intro ⟨b, hb, hbt⟩
        by_cases ha : a.type = typeEsds
        · exact ⟨[], a, l, rfl, ha, fun x hx => nomatch hx⟩
        · have hb' : b ∈ l := by
            rcases List.mem_cons.1 hb with rfl | hb'
            · exact absurd hbt ha
            · exact hb'
          obtain ⟨pre, c, post, h1, h2, h3⟩ := ih ⟨b, hb', hbt⟩
          refine ⟨a :: pre, c, post, by rw [h1]; rfl, h2, ?_⟩
          intro x hx
          rcases List.mem_cons.1 hx with rfl | hx
          · exact ha
          · exact h3 x hx
    obtain ⟨k, hk, hkt⟩ := h
    obtain ⟨pre, b, post, h1, h2, h3⟩ := key (vals s.kids)
      ⟨k.val, List.mem_map.2 ⟨k, hk, rfl⟩, by rw [type_of_reads (hs.family k hk).1.read, hkt, e2]⟩
    rw [h1, findAt_here h3 h2]
    show (deleteBox typeEsds (((pre ++ b :: post).map Cell.live).set pre.length .freed)).bind _ = _
    have : ((pre ++ b :: post).map Cell.live).set pre.length .freed = pre.map Cell.live ++ .freed :: post.map Cell.live := by
      rw [List.map_append, List.map_cons]
      have hl : (pre.map (Cell.live (β := Bx α))).length = pre.length := by simp
      rw [← hl]
      simp
    rw [this, delete_freed h3]
    rfl
  · rw [if_neg h, findAt_none]
    · rfl
    · rw [e2]
      exact vals_ne hs.family fun k hk e => h ⟨k, hk, e⟩

/-! ## The elementary stream descriptor -/

/-- The priority is set in the first box with an elementary stream descriptor, and nothing else changes. -/
theorem c90_priority (hs : s.Ok (boxes C)) (ht : s.Typed) {pre post : List (Kid (Bx α))} {v f : Nat} {e : Es}
    (hk : s.kids = pre ++ esdsKid v f e :: post) (hp : ∀ k ∈ pre, k.type ≠ fcc 'e' 's' 'd' 's') (he : EsdsOk v f e) {p : Nat}
    (h5 : p < 32) :
    setPriority C s.bytes p = .ok { s with kids := pre ++ esdsKid v f { e with priority := p } :: post }.bytes ∧
      { s with kids := pre ++ esdsKid v f { e with priority := p } :: post }.Ok (boxes C) := by
  have hl : (esPayload { e with priority := p }).length = (esPayload e).length := by
    rw [esPayload, esPayload, List.length_append, List.length_append, esHead_length, esHead_length]
    rfl
  have he' : EsdsOk v f { e with priority := p } := by
    refine ⟨he.version, he.flags, ?_, by rw [hl]; exact he.length⟩
    obtain ⟨h1, h2, h3, h4, h5', h6, h7, h8, h9⟩ := he.es
    exact ⟨⟨h1.1, h5, h1.2.2⟩, h2, h3, h4, h5', h6, h7, h8, h9⟩
  have hz : 4096 + { s with kids := pre ++ esdsKid v f { e with priority := p } :: post }.bytes.length < 4294967296 := by
    have := hs.size
    unfold Sample.bytes at this ⊢
    rw [hk] at this
    simp only [box_length, List.length_append, wire, List.flatMap_append, List.flatMap_cons, esdsKid, fullBox, esBytes,
      descr_length (by omega : 1 ≤ 4), hl] at this ⊢
    exact this
  have hx := es_exchange hs hk he' hz
  refine ⟨?_, hx.2⟩
  have hf : Family (boxes C) pre := fun k hm => hs.family k (by rw [hk]; simp [hm])
  unfold setPriority
  rw [hs.opened ht]
  show (findEs (anyExt s.entry)).bind _ = _
  have e1 : findEs (anyExt s.entry) = .ok (pre.length, v, f, e) := by rw [entry_ext, hk, findEs_here hf hp]
  rw [e1]
  exact hx.1

/-- With no such box the parameter is bad, for both functions on the descriptor. -/
theorem c90_no_descriptor (hs : s.Ok (boxes C)) (ht : s.Typed) (hk : ∀ k ∈ s.kids, k.type ≠ fcc 'e' 's' 'd' 's') (p : Nat)
    (d : Bytes) : setPriority C s.bytes p = .err .badParam ∧ addDesc C s.bytes d = .err .badParam := by
  have e1 : findEs (anyExt s.entry) = .err .badParam := by rw [entry_ext, findEs_none hs.family hk]
  unfold setPriority addDesc
  rw [hs.opened ht]
  constructor
  · show (findEs (anyExt s.entry)).bind _ = _
    rw [e1]; rfl
  · show (findEs (anyExt s.entry)).bind _ = _
    rw [e1]; rfl

/-- A descriptor for which there is place is put into the elementary stream descriptor. The tags 0x4A to 0x5F are not
meant, see `c49_oci_moves`. -/
theorem c90_add_desc (hs : s.Ok (boxes C)) (ht : s.Typed) {pre post : List (Kid (Bx α))} {v f : Nat} {e e' : Es}
    (hk : s.kids = pre ++ esdsKid v f e :: post) (hp : ∀ k ∈ pre, k.type ≠ fcc 'e' 's' 'd' 's') (he : EsdsOk v f e)
    {c : Child} (hc : ChildOk c) (ho : ∀ d, c = .plain d → ¬ (0x4A ≤ d.tag ∧ d.tag ≤ 0x5F)) (hj : joined e c = some e')
    (hl : (esPayload e').length < 268435456) (hcl : (childBytes c).length < 268435456)
    (hz : 4096 + { s with kids := pre ++ esdsKid v f e' :: post }.bytes.length < 4294967296) (r : Bytes) :
    addDesc C s.bytes (childBytes c ++ r) = .ok { s with kids := pre ++ esdsKid v f e' :: post }.bytes ∧
      { s with kids := pre ++ esdsKid v f e' :: post }.Ok (boxes C) := by
  have ha : addDescriptor e c = .ok e' := by
    have := insert_joined e c
    rw [hj] at this
    cases c with
    | plain d => simp only [addDescriptor]; rw [if_neg (ho d rfl)]; exact this
    | dec d => exact this
    | sl d => exact this
    | ptr d => exact this
  have hx := es_exchange hs hk ⟨he.version, he.flags, c49_add_keeps he.es hc ho ha, hl⟩ hz
  refine ⟨?_, hx.2⟩
  have hf : Family (boxes C) pre := fun k hm => hs.family k (by rw [hk]; simp [hm])
  unfold addDesc
  rw [hs.opened ht]
  show (findEs (anyExt s.entry)).bind _ = _
  have e1 : findEs (anyExt s.entry) = .ok (pre.length, v, f, e) := by rw [entry_ext, hk, findEs_here hf hp]
  rw [e1]
  show (getDesc getChild ⟨childBytes c ++ r, 0⟩).bind _ = _
  rw [parses_child hc (by omega) r 0]
  show (addDescriptor e c).bind _ = _
  rw [ha]
  exact hx.1

/-- A descriptor for which there is no place is refused. -/
theorem c90_add_desc_refused (hs : s.Ok (boxes C)) (ht : s.Typed) {pre post : List (Kid (Bx α))} {v f : Nat} {e : Es}
    (hk : s.kids = pre ++ esdsKid v f e :: post) (hp : ∀ k ∈ pre, k.type ≠ fcc 'e' 's' 'd' 's')
    {c : Child} (hc : ChildOk c) (hj : joined e c = none) (hcl : (childBytes c).length < 268435456) (r : Bytes) :
    addDesc C s.bytes (childBytes c ++ r) = .err .invalidMedia := by
  have ha : addDescriptor e c = .err .invalidMedia := by
    have := insert_joined e c
    rw [hj] at this
    cases c with
    | plain d =>
      simp only [addDescriptor]
      rw [if_neg]
      · exact this
      · intro h
        simp only [joined] at hj
        rw [if_neg (by omega), if_neg (by omega), if_neg (by omega), if_neg (by omega)] at hj
        cases hj
    | dec d => exact this
    | sl d => exact this
    | ptr d => exact this
  have hf : Family (boxes C) pre := fun k hm => hs.family k (by rw [hk]; simp [hm])
  unfold addDesc
  rw [hs.opened ht]
  show (findEs (anyExt s.entry)).bind _ = _
  have e1 : findEs (anyExt s.entry) = .ok (pre.length, v, f, e) := by rw [entry_ext, hk, findEs_here hf hp]
  rw [e1]
  show (getDesc getChild ⟨childBytes c ++ r, 0⟩).bind _ = _
  rw [parses_child hc (by omega) r 0]
  show (addDescriptor e c).bind _ = _
  rw [ha]
  rfl

/-! ## Dimensions -/

/-- The dimensions of a visual entry, of a type that is known or not, are set, and nothing else changes. -/
theorem c90_dims (hs : s.Ok (boxes C)) {f : Video} (hk : s.kind = .visual f) (ht : s.Typed ∨ s.type ∉ known) {w h : Nat}
    (hw : w < 65536) (hh : h < 65536) :
    setDims C s.bytes w h = .ok { s with kind := .visual { f with width := w, height := h } }.bytes ∧
      { s with kind := .visual { f with width := w, height := h } }.Ok (boxes C) ∧
      getDims C { s with kind := .visual { f with width := w, height := h } }.bytes = .ok (w, h) := by
  have hf : f.Fits := by have := hs.fits; rw [hk] at this; exact this
  have hf' : Video.Fits { f with width := w, height := h } := { hf with width := hw, height := hh }
  have hs' : { s with kind := .visual { f with width := w, height := h } }.Ok (boxes C) := by
    refine ⟨hs.family, hs.head, hf', hs.good, ?_⟩
    have := hs.size
    simp only [Sample.bytes, hk, Kind.fields, Kind.last, box_length, List.length_append, Video.length hf, Video.length hf'] at this ⊢
    exact this
  have key : ∀ {s : Sample (Bx α)} {f : Video}, s.Ok (boxes C) → s.kind = .visual f → (s.Typed ∨ s.type ∉ known) →
      openEntry (boxes C) .visual s.bytes = .ok (.visual ⟨s.type, s.reserved, s.dref, f, vals s.kids⟩) := by
    intro s f hs hk ht
    have : openEntry (boxes C) .visual s.bytes = .ok s.entry := by
      rcases ht with ht | ht
      · exact hs.opened ht _
      · exact hs.opened_visual hk (by rw [protos_iff]; exact ht)
    rw [this, Sample.entry, hk]
  refine ⟨?_, hs', ?_⟩
  · unfold setDims
    rw [key hs hk ht]
    exact hs'.store
  · have hr : s.type ≠ fcc 'r' 'e' 's' 'v' := by
      rcases ht with ht | ht
      · unfold Sample.Typed at ht
        rw [hk] at ht
        intro e
        rw [e] at ht
        simp only [Kind.types] at ht
        revert ht
        decide
      · intro e
        rw [e] at ht
        revert ht
        decide
    unfold getDims
    rw [key (s := { s with kind := .visual { f with width := w, height := h } }) hs' rfl
      (by rcases ht with ht | ht
          · left
            unfold Sample.Typed at ht ⊢
            rw [hk] at ht
            exact ht
          · exact .inr ht)]
    show (if s.type = fcc 'r' 'e' 's' 'v' then Res.ub else .ok (w % 65536, h % 65536)) = _
    rw [if_neg hr, Nat.mod_eq_of_lt hw, Nat.mod_eq_of_lt hh]

/-- The dimensions of a restricted entry can be asked for. -/
theorem c90_get_dims (hs : s.Ok (boxes C)) (ht : s.Typed) {f : Video} (hk : s.kind = .restricted f) :
    getDims C s.bytes = .ok (f.width, f.height) := by
  have hf : f.Fits := by have := hs.fits; rw [hk] at this; exact this
  unfold getDims
  rw [hs.opened ht, Sample.entry, hk]
  show Res.ok (f.width % 65536, f.height % 65536) = _
  rw [Nat.mod_eq_of_lt hf.width, Nat.mod_eq_of_lt hf.height]

/-- Other entries, also protected and restricted ones, are taken for visual ones: members of another structure are
written. -/
theorem c90_not_dims (hs : s.Ok (boxes C)) (ht : s.Typed) (hk : ∀ f, s.kind ≠ .visual f) (w h : Nat) :
    setDims C s.bytes w h = .ub ∧ ((∀ f, s.kind ≠ .restricted f) → getDims C s.bytes = .ub) := by
  unfold setDims getDims
  rw [hs.opened ht, Sample.entry]
  cases e : s.kind with
  | visual f => exact absurd e (hk f)
  | restricted f => exact ⟨rfl, fun hr => absurd rfl (hr f)⟩
  | plain => exact ⟨rfl, fun _ => rfl⟩
  | audio f => exact ⟨rfl, fun _ => rfl⟩
  | encVisual f p => exact ⟨rfl, fun _ => rfl⟩
  | encAudio f p => exact ⟨rfl, fun _ => rfl⟩
  | xml a b c => exact ⟨rfl, fun _ => rfl⟩
  | text a b => exact ⟨rfl, fun _ => rfl⟩
  | mebx => exact ⟨rfl, fun _ => rfl⟩

/-! ## Boxes -/

/-- A box is put after the others. The caller's box is given back. -/
theorem c90_add (hs : s.Ok (boxes C)) (ht : s.Typed) {k : Kid (Bx α)} (hk : { s with kids := s.kids ++ [k] }.Ok (boxes C)) :
    addBox C s.bytes k.val = (.ok { s with kids := s.kids ++ [k] }.bytes, .freed) := by
  unfold addBox
  rw [hs.opened ht]
  have e : anyExt s.entry ++ [k.val] = vals (s.kids ++ [k]) := by rw [entry_ext]; simp [vals]
  simp only [e, store_setExt, hk.store]
  simp [destroyAll, vals]

/-- The caller's box is kept just when the handle cannot be opened. -/
theorem c90_add_taken (input : Bytes) (b : Bx α) :
    (addBox C input b).2 = .freed ↔ ∃ x, openEntry (boxes C) .generic input = .ok x := by
  unfold addBox
  cases h : openEntry (boxes C) .generic input with
  | ok x => simp [destroyAll]
  | err e => simp
  | ub => simp

/-- A box that is got was given back before the function returns, whatever is in the handle. -/
theorem c90_not_get (input : Bytes) (type : Nat) (c : Cell (Bx α)) (h : getBox C input type = .ok c) : c = .freed := by
  unfold getBox at h
  cases h1 : openEntry (boxes C) .generic input with
  | err e => rw [h1] at h; cases h
  | ub => rw [h1] at h; cases h
  | ok x =>
    rw [h1] at h
    change (findAt type (anyExt x)).bind _ = _ at h
    cases h2 : findAt type (anyExt x) with
    | err e => rw [h2] at h; cases h
    | ub => rw [h2] at h; cases h
    | ok i =>
      rw [h2] at h
      change (match (destroyAll ((anyExt x).map Cell.live))[i]? with | some c => Res.ok c | none => .ub) = _ at h
      simp only [destroyAll, List.getElem?_map] at h
      cases h3 : (anyExt x)[i]? with
      | none => rw [h3] at h; cases h
      | some b => rw [h3] at h; cases h; rfl

/-- It is found if there is one of the type. -/
theorem c90_get (hs : s.Ok (boxes C)) (ht : s.Typed) (type : Nat) :
    getBox C s.bytes type = if ∃ k ∈ s.kids, k.type = type then .ok .freed else .err .notFound := by
  have ho : getBox C s.bytes type = (findAt type (vals s.kids)).bind fun i =>
      match (destroyAll ((vals s.kids).map Cell.live))[i]? with | some c => Res.ok c | none => .ub := by
    unfold getBox
    rw [hs.opened ht]
    show (findAt type (anyExt s.entry)).bind _ = _
    rw [entry_ext]
    rfl
  rw [ho]
  by_cases h : ∃ k ∈ s.kids, k.type = type
  · rw [if_pos h]
    have key : ∀ l : List (Bx α), (∃ b ∈ l, b.type = type) → ∃ i, findAt type l = .ok i ∧ i < l.length := by
      intro l
      induction l with
      | nil => intro ⟨b, hb, _⟩; cases hb
      | cons a l ih =>
        intro ⟨b, hb, hbt⟩
        by_cases ha : a.type = type
        · exact ⟨0, by rw [findAt, if_pos ha], by simp⟩
        · have hb' : b ∈ l := by
            rcases List.mem_cons.1 hb with rfl | hb'
            · exact absurd hbt ha
            · exact hb'
          obtain ⟨i, h1, h2⟩ := ih ⟨b, hb', hbt⟩
          refine ⟨i + 1, ?_, by simpa using h2⟩
          rw [findAt, if_neg ha, h1]
          rfl
    obtain ⟨k, hk, hkt⟩ := h
    obtain ⟨i, h1, h2⟩ := key (vals s.kids) ⟨k.val, List.mem_map.2 ⟨k, hk, rfl⟩, by rw [type_of_reads (hs.family k hk).1.read, hkt]⟩
    rw [h1]
    show (match (destroyAll ((vals s.kids).map Cell.live))[i]? with | some c => Res.ok c | none => .ub) = _
    simp only [destroyAll, List.getElem?_map, List.getElem?_eq_getElem h2]
    rfl
  · rw [if_neg h, findAt_none (vals_ne hs.family fun k hk e => h ⟨k, hk, e⟩)]
    rfl

/-- The bit rates are put after the other boxes. -/
theorem c90_bitrate (hs : s.Ok (boxes C)) (ht : s.Typed) {buffer max avg : Nat}
    (hk : { s with kids := s.kids ++ [btrtKid buffer max avg] }.Ok (boxes C)) :
    addBitrate C s.bytes false buffer max avg = .ok { s with kids := s.kids ++ [btrtKid buffer max avg] }.bytes := by
  unfold addBitrate
  rw [hs.opened ht]
  show store (boxes C) (setAnyExt (anyExt s.entry ++ [_]) s.entry) = _
  have e2 : Rows.typeBtrt = fcc 'b' 't' 'r' 't' := by decide
  have e : anyExt s.entry ++ [.rate (if false = true then typeBitr else Rows.typeBtrt) ⟨buffer, max, avg⟩] =
      vals (s.kids ++ [btrtKid buffer max avg]) := by
    rw [entry_ext]; simp [vals, btrtKid, e2]
  rw [e, store_setExt, hk.store]

/-- In 3GPP files they are without the size of the buffer. -/
theorem c90_bitrate_3gpp (hs : s.Ok (boxes C)) (ht : s.Typed) {buffer max avg : Nat}
    (hk : { s with kids := s.kids ++ [bitrKid max avg] }.Ok (boxes C)) :
    addBitrate C s.bytes true buffer max avg = .ok { s with kids := s.kids ++ [bitrKid max avg] }.bytes := by
  unfold addBitrate
  rw [hs.opened ht]
  show store (boxes C) (setAnyExt (anyExt s.entry ++ [.rate typeBitr ⟨buffer, max, avg⟩]) s.entry) = _
  rw [store_last (K := boxes C) (x := .rate typeBitr ⟨buffer, max, avg⟩) (y := .rate typeBitr ⟨0, max, avg⟩) s.entry rfl]
  · have e : anyExt s.entry ++ [.rate typeBitr ⟨0, max, avg⟩] = vals (s.kids ++ [bitrKid max avg]) := by
      rw [entry_ext]; simp [vals, bitrKid, typeBitr]
    rw [e, store_setExt, hk.store]
  · show Rows.Btrt.serialize typeBitr ⟨buffer, max, avg⟩ = Rows.Btrt.serialize typeBitr ⟨0, max, avg⟩
    unfold Rows.Btrt.serialize
    rw [if_neg (by decide), if_neg (by decide)]

/-! ## Entries of other types -/

/-- In an entry of an unknown type no box is seen: there is no elementary stream descriptor and no box to get. A box that is
added goes after the data, and is data from then on. -/
theorem c90_unknown {t d : Nat} {r data : Bytes} (h : RawOk t r d data) :
    getType C (rawBytes t r d data) = .ok t ∧
      (∀ p, setPriority C (rawBytes t r d data) p = .err .badParam) ∧
      (∀ c, addDesc C (rawBytes t r d data) c = .err .badParam) ∧
      (∀ u, getBox C (rawBytes t r d data) u = .err .notFound) ∧
      (∀ u, GoodType u → setType C (rawBytes t r d data) u =
        if u / 256 = fcc 'm' 'p' '4' ' ' / 256 then .ok (rawBytes u r d data) else .err .notFound) ∧
      (∀ k : Kid (Bx α), Family (boxes C) [k] → 16 + data.length + k.bytes.length < 4294967296 →
        addBox C (rawBytes t r d data) k.val = (.ok (rawBytes t r d (data ++ k.bytes)), .freed)) := by
  have ho := h.opened (K := boxes C)
  refine ⟨?_, ?_, ?_, ?_, ?_, ?_⟩
  · unfold getType; rw [ho]; rfl
  · intro p; unfold setPriority; rw [ho]; rfl
  · intro c; unfold addDesc; rw [ho]; rfl
  · intro u; unfold getBox; rw [ho]; rfl
  · intro u hu
    by_cases h4 : u / 256 = fcc 'm' 'p' '4' ' ' / 256
    · rw [if_pos h4, setType_mp4 ho h4]
      have := raw_store (K := boxes C) (t := u) (ks := []) (data := data) h.head hu (fun k hk => nomatch hk)
        (by have := h.size; simp only [wire, List.flatMap_nil, List.length_nil]; omega)
      simpa [wire, vals, setAnyType] using this
    · rw [if_neg h4, setType_other ho h4]
      rfl
  · intro k hk hl
    have e : wire [k] = k.bytes := by simp [wire]
    have := raw_store (K := boxes C) (t := t) (ks := [k]) (data := data) h.head h.good hk (by rw [e]; omega)
    rw [e] at this
    unfold addBox
    rw [ho]
    simp only [anyExt, setAnyExt, List.nil_append]
    have ev : vals [k] = [k.val] := rfl
    rw [ev] at this
    rw [this]
    simp [destroyAll]

/-! ## New descriptions -/

variable {t : Track} {media : Media}

private theorem visual_bit (t : Track) : t.isVisual = Visual t := by
  unfold Track.isVisual Visual
  rw [Nat.testBit_eq_decide_div_mod_eq]

private theorem audio_bit (t : Track) : t.isAudio = Audible t := by
  unfold Track.isAudio Audible
  rw [Nat.testBit_eq_decide_div_mod_eq]

private theorem rate_lt {r : Nat} (h : Of t (.audio r)) : r < 65536 := by
  obtain ⟨_, _, n, _, rfl⟩ := h
  split <;> omega

private theorem media_new (hm : Of t media) (dref : Nat) (type : Option Nat) (ext : List (Bx α)) : ∃ x,
    newEntry t dref type ext = .ok x ∧ anyExt x = ext ∧ ∀ l : List (Kid (Bx α)),
      store (boxes C) (setAnyExt (vals l) x) =
        store (boxes C) (Sample.entry ⟨type.getD media.type, zeros, dref, media.kind, l⟩) := by
  cases media with
  | visual =>
    refine ⟨.visual ⟨type.getD (fcc 'm' 'p' '4' 'v'), zeros, dref, newVideo, ext⟩, ?_, rfl, fun l => ?_⟩
    · unfold newEntry; rw [visual_bit, if_pos (show Visual t = true from hm)]
    · exact store_video _ _ _ _
  | audio r =>
    obtain ⟨h1, h2, n, h3, h4⟩ := hm
    refine ⟨.audio ⟨type.getD (fcc 'm' 'p' '4' 'a'), zeros, dref, (newAudio (if n ≤ 0xFFFF then n else 0), ⟨0, 0, 0, 0⟩), ext⟩,
      ?_, rfl, fun l => ?_⟩
    · unfold newEntry; rw [visual_bit, audio_bit, h1, h2, h3]; rfl
    · have hr : (if n ≤ 0xFFFF then n else 0) = r := by
        rw [h4]
        by_cases c : n < 65536
        · rw [if_pos c, if_pos (by omega)]
        · rw [if_neg c, if_neg (by omega)]
      have hr' : r < 65536 := by rw [h4]; split <;> omega
      rw [hr]
      refine (store_audio _ _ _ _ _).trans ?_
      rw [Nat.mod_eq_of_lt hr']
      rfl
  | other =>
    refine ⟨.plain ⟨type.getD (fcc 'm' 'p' '4' 's'), zeros, dref, (), ext⟩, ?_, rfl, fun l => rfl⟩
    unfold newEntry
    rw [visual_bit, audio_bit, hm.1, hm.2]
    rfl

private theorem media_ok (hm : Of t media) {dref type : Nat} (hd : dref < 65536) (hg : GoodType type) {l : List (Kid (Bx α))}
    (hf : Family (boxes C) l) (hl : 8192 + (wire l).length < 4294967296) :
    (⟨type, zeros, dref, media.kind, l⟩ : Sample (Bx α)).Ok (boxes C) := by
  have hh : HeadFits zeros dref := ⟨rfl, hd⟩
  cases media with
  | visual =>
    refine ⟨hf, hh, freshVideo_fits, hg, ?_⟩
    simp only [Sample.bytes, box_length, List.length_append, headWire_length hh, Media.kind, Kind.fields, Kind.last,
      Video.length freshVideo_fits, List.length_nil]
    omega
  | audio r =>
    have hr := freshAudio_fits (rate_lt hm)
    refine ⟨hf, hh, hr, hg, ?_⟩
    simp only [Sample.bytes, box_length, List.length_append, headWire_length hh, Media.kind, Kind.fields, Kind.last,
      Audio.length hr, List.length_nil]
    omega
  | other =>
    refine ⟨hf, hh, trivial, hg, ?_⟩
    simp only [Sample.bytes, box_length, List.length_append, headWire_length hh, Media.kind, Kind.fields, Kind.last,
      List.length_nil]
    omega

/-- What is given as decoder specific information: nothing, or a handle with a descriptor of tag 5. -/
inductive Given : Option Bytes → Option Default → Prop
  | nothing : Given none none
  | some {k : Nat} {data : Bytes} (hk : 1 ≤ k) (hk4 : k ≤ 4) (hl : data.length < 2 ^ (7 * k)) (r : Bytes) :
    Given (some (descr k 5 data ++ r)) (some ⟨5, data⟩)

private theorem info_given {info : Option Bytes} {i : Option Default} (h : Given info i) : getInfo info = .ok i := by
  cases h with
  | nothing => rfl
  | some hk hk4 hl r =>
    rename_i k data
    have h28 : 2 ^ (7 * k) ≤ 2 ^ 28 := Nat.pow_le_pow_right (by omega) (by omega)
    unfold getInfo
    simp only
    rw [c30_any_length_form hk hl (by omega) (by omega) (by decide) r 0]
    rfl

private theorem make_given {info : Option Bytes} {i : Option Default} (h : Given info i)
    (objectType streamType buffer max avg ocr : Nat) :
    makeEs t objectType streamType buffer max avg info ocr =
      if ocr ≠ 0 then (t.refer ocr).bind fun _ => .ok (freshEs objectType streamType buffer max avg i)
      else .ok (freshEs objectType streamType buffer max avg i) := by
  unfold makeEs
  rw [info_given h]
  rfl

/-- A new MPEG-4 description: an entry by the kind of the track, whose box has a descriptor with the decoder configuration
that was given and the SL configuration of files. -/
theorem c90_new (hm : Of t media) {dref objectType streamType buffer max avg ocr : Nat} (hd : dref < 65536)
    (h1 : objectType < 256) (h2 : streamType < 64) (h3 : buffer < 16777216) (h4 : max < 4294967296) (h5 : avg < 4294967296)
    {info : Option Bytes} {i : Option Default} (hi : Given info i) (hl : ∀ d ∈ i, d.data.length < 134217728)
    (hr : ocr ≠ 0 → t.refer ocr = .ok ()) :
    newDesc C true t dref objectType streamType buffer max avg info ocr =
        .ok (some (Sample.bytes (β := Bx α) ⟨media.type, zeros, dref, media.kind,
          [esdsKid 0 0 (freshEs objectType streamType buffer max avg i)]⟩)) ∧
      Sample.Ok (boxes C) ⟨media.type, zeros, dref, media.kind,
          [esdsKid 0 0 (freshEs objectType streamType buffer max avg i)]⟩ ∧
      Sample.Typed (β := Bx α) ⟨media.type, zeros, dref, media.kind,
          [esdsKid 0 0 (freshEs objectType streamType buffer max avg i)]⟩ := by
  have ht5 : ∀ d ∈ i, d.tag = 5 := by
    cases hi with
    | nothing => intro d hd; cases hd
    | some => intro d hd; cases hd; rfl
  have he : EsdsOk 0 0 (freshEs objectType streamType buffer max avg i) :=
    fresh_ok h1 h2 h3 h4 h5 fun d hd => ⟨ht5 d hd, hl d hd⟩
  have hw : (wire [esdsKid (α := α) 0 0 (freshEs objectType streamType buffer max avg i)]).length < 268435456 + 100 := by
    have := he.length
    simp only [wire, List.flatMap_cons, List.flatMap_nil, List.append_nil, esdsKid, fullBox, box_length, esBytes,
      descr_length (by omega : 1 ≤ 4), List.length_append, be_length]
    omega
  have hg : GoodType media.type := by cases media <;> (unfold GoodType; simp only [Media.type]; decide)
  have hok := media_ok (C := C) hm hd hg (l := [esdsKid 0 0 (freshEs objectType streamType buffer max avg i)]) (by
    intro k hk
    rw [List.mem_singleton] at hk
    subst hk
    exact ⟨esds_survives he.version he.flags he.es he.length, esds_not_dropped⟩) (by omega)
  refine ⟨?_, hok, ?_⟩
  · obtain ⟨x, hx1, hx2, hx3⟩ := media_new (C := C) hm dref none []
    have hmk : makeEs t objectType streamType buffer max avg info ocr = .ok (freshEs objectType streamType buffer max avg i) := by
      rw [make_given hi]
      by_cases c : ocr = 0
      · rw [if_neg (by simp [c])]
      · rw [if_pos c, hr c]; rfl
    unfold newDesc
    rw [hx1]
    simp only [hmk, hx2, List.nil_append, if_true]
    have e : [Bx.esds 0 0 (some (freshEs objectType streamType buffer max avg i))] =
        vals [esdsKid (α := α) 0 0 (freshEs objectType streamType buffer max avg i)] := rfl
    rw [e, hx3]
    have e2 : (none : Option Nat).getD media.type = media.type := rfl
    rw [e2, hok.store]
    rfl
  · cases media <;> (simp only [Sample.Typed, Media.type, Media.kind, Kind.types]; decide)

/-- The error of the track for the clock reference is lost: the result is that nothing was found, for there is no box to
take out again. -/
theorem c90_not_new_error (hm : Of t media) {dref objectType streamType buffer max avg ocr : Nat} {info : Option Bytes}
    {i : Option Default} (hi : Given info i) (h0 : ocr ≠ 0) {e : Err} (hr : t.refer ocr = .err e) (mem : Bool) :
    newDesc C mem t dref objectType streamType buffer max avg info ocr = .err .notFound := by
  obtain ⟨x, hx1, hx2, _⟩ := media_new (C := C) hm dref none []
  have hmk : makeEs t objectType streamType buffer max avg info ocr = .err e := by
    rw [make_given hi, if_pos h0, hr]
    rfl
  unfold newDesc
  rw [hx1]
  simp only [hmk, hx2]
  rfl

/-- So is that of a handle which is too short for a descriptor. -/
theorem c90_not_new_info (hm : Of t media) (dref objectType streamType buffer max avg ocr : Nat) (mem : Bool) :
    newDesc C mem t dref objectType streamType buffer max avg (some []) ocr = .err .notFound := by
  obtain ⟨x, hx1, hx2, _⟩ := media_new (C := C) hm dref none []
  have hmk : makeEs t objectType streamType buffer max avg (some []) ocr = .err .ioErr := rfl
  unfold newDesc
  rw [hx1]
  simp only [hmk, hx2]
  rfl

/-- With no memory for the handle there is no error, and the handle is not written. -/
theorem c90_not_new_memory (hm : Of t media) {dref objectType streamType buffer max avg ocr : Nat} {info : Option Bytes}
    {i : Option Default} (hi : Given info i) (hr : ocr ≠ 0 → t.refer ocr = .ok ()) :
    newDesc C false t dref objectType streamType buffer max avg info ocr = .ok none := by
  obtain ⟨x, hx1, hx2, _⟩ := media_new (C := C) hm dref none []
  have hmk : makeEs t objectType streamType buffer max avg info ocr = .ok (freshEs objectType streamType buffer max avg i) := by
    rw [make_given hi]
    by_cases c : ocr = 0
    · rw [if_neg (by simp [c])]
    · rw [if_pos c, hr c]; rfl
  unfold newDesc
  rw [hx1]
  simp only [hmk, hx2]
  rfl

/-- An audio track with no time scale: the error of the media. -/
theorem c90_no_scale (hv : Visual t = false) (ha : Audible t = true) {e : Err} (hs : t.timeScale = .err e)
    (dref objectType streamType buffer max avg ocr type : Nat) (info : Option Bytes) (b : Option (Bx α)) (mem : Bool) :
    newDesc C mem t dref objectType streamType buffer max avg info ocr = .err e ∧ newGeneral C t dref type b = .err e := by
  have h : ∀ (type : Option Nat) (ext : List (Bx α)), newEntry t dref type ext = .err e := by
    intro type ext
    unfold newEntry
    rw [visual_bit, audio_bit, hv, ha, hs]
    rfl
  constructor
  · unfold newDesc; rw [h]
  · unfold newGeneral; rw [h]; rfl

/-- A new description of any type, with one box or none. -/
theorem c90_general (hm : Of t media) {dref type : Nat} (hd : dref < 65536) (hg : GoodType type) {k : Option (Kid (Bx α))}
    (hf : Family (boxes C) k.toList) (hl : 8192 + (wire k.toList).length < 4294967296) :
    newGeneral C t dref type (k.map (·.val)) = .ok (Sample.bytes ⟨type, zeros, dref, media.kind, k.toList⟩) ∧
      Sample.Ok (boxes C) ⟨type, zeros, dref, media.kind, k.toList⟩ := by
  have hok := media_ok (C := C) hm hd hg hf hl
  refine ⟨?_, hok⟩
  have ev : (k.map (·.val)).toList = vals k.toList := by cases k <;> rfl
  obtain ⟨x, hx1, hx2, hx3⟩ := media_new (C := C) hm dref (some type) (vals k.toList)
  have h3 := hx3 k.toList
  have hset : setAnyExt (vals k.toList) x = x := by
    rw [← hx2]
    cases x <;> rfl
  rw [hset] at h3
  unfold newGeneral
  rw [ev, hx1]
  show store (boxes C) x = _
  rw [h3]
  exact hok.store

/-- A new description of H.263 video, which needs a visual track. -/
theorem c90_h263 {dref vendor version level profile : Nat} (hd : dref < 65536) (h1 : vendor < 4294967296) (h2 : version < 256)
    (h3 : level < 256) (h4 : profile < 256) :
    newH263 C t dref vendor version level profile =
      if Visual t then .ok (Sample.bytes (β := Bx α) ⟨fcc 's' '2' '6' '3', zeros, dref, .visual freshVideo,
        [d263Kid vendor version level profile]⟩) else .err .badParam := by
  unfold newH263
  rw [visual_bit]
  split
  · rename_i hv
    have hok := media_ok (C := C) (media := .visual) hv hd (type := fcc 's' '2' '6' '3') (by unfold GoodType; decide)
      (l := [d263Kid vendor version level profile]) (by
        intro k hk
        rw [List.mem_singleton] at hk
        subst hk
        exact d263_family h1 h2 h3 h4) (by simp [wire, d263Kid, box_length])
    rw [store_video]
    exact hok.store
  · rfl

private theorem audio_ok {dref type n : Nat} (hd : dref < 65536) (hg : GoodType type) (ha : Audible t = true)
    {l : List (Kid (Bx α))} (hf : Family (boxes C) l) (hl : 8192 + (wire l).length < 4294967296) :
    store (boxes C) (.audio ⟨type, zeros, dref, (newAudio n, ⟨0, 0, 0, 0⟩), vals l⟩) =
      .ok (Sample.bytes ⟨type, zeros, dref, .audio (freshAudio (n % 65536)), l⟩) := by
  have hok := media_ok (C := C) (t := ⟨4, .ok (n % 65536), fun _ => .ok ()⟩) (media := .audio (n % 65536))
    ⟨show Nat.testBit 4 1 = false from (by decide), show Nat.testBit 4 2 = true from (by decide), n % 65536, rfl, by rw [if_pos (by omega)]⟩ hd hg hf hl
  have := store_audio (K := boxes C) type dref n zeros (vals l)
  exact this.trans hok.store

/-- New descriptions of AMR audio, narrow or wide, which need an audio track. The time scale loses what is above 16 bits. -/
theorem c90_amr {dref : Nat} {wide : Bool} {x : Damr} (hd : dref < 65536) (h0 : x.vendor < 4294967296) (h1 : x.decoder < 256)
    (h2 : x.modeSet < 65536) (h3 : x.period < 256) (h4 : x.frames < 256) {n : Nat} (ht : t.timeScale = .ok n) :
    newAmr C t dref wide x =
      if Audible t then .ok (Sample.bytes (β := Bx α) ⟨if wide then fcc 's' 'a' 'w' 'b' else fcc 's' 'a' 'm' 'r', zeros, dref,
        .audio (freshAudio (n % 65536)), [damrKid x]⟩) else .err .badParam := by
  unfold newAmr
  rw [audio_bit]
  split
  · rename_i ha
    rw [ht]
    exact audio_ok (C := C) (l := [damrKid x]) hd (by cases wide <;> (unfold GoodType; decide)) ha (by
        intro k hk
        rw [List.mem_singleton] at hk
        subst hk
        exact damr_family h0 h1 h2 h3 h4) (by simp [wire, damrKid, box_length])
  · rfl

/-- The same of AMR-WB+. -/
theorem c90_amrwp {dref vendor version : Nat} (hd : dref < 65536) (h0 : vendor < 4294967296) (h1 : version < 256) {n : Nat}
    (ht : t.timeScale = .ok n) :
    newAmrWp C t dref vendor version =
      if Audible t then .ok (Sample.bytes (β := Bx α) ⟨fcc 's' 'a' 'w' 'p', zeros, dref, .audio (freshAudio (n % 65536)),
        [dawpKid vendor version]⟩) else .err .badParam := by
  unfold newAmrWp
  rw [audio_bit]
  split
  · rename_i ha
    rw [ht, Res.ok_bind]
    have hg : GoodType (fcc 's' 'a' 'w' 'p') := by unfold GoodType; decide
    exact audio_ok (C := C) (n := n) (l := [dawpKid vendor version]) hd hg ha (by
        intro k hk
        rw [List.mem_singleton] at hk
        subst hk
        exact dawp_family h0 h1) (by simp [wire, dawpKid, box_length])
  · rfl

/-- New descriptions of XML metadata; no string is an empty one. -/
theorem c90_xml {dref : Nat} (hd : dref < 65536) {a b c : Option Bytes} (ha : Short 1023 a) (hb : Short 1023 b)
    (hc : Short 1023 c) :
    newXml C dref a b c = .ok (Sample.bytes (β := Bx α) ⟨fcc 'm' 'e' 't' 'x', zeros, dref,
      .xml (a.getD []) (b.getD []) (c.getD []), []⟩) := by
  have hg : GoodType (fcc 'm' 'e' 't' 'x') := by unfold GoodType; decide
  have h := (c70_xml_partial (C := boxes C) (ks := []) (fun k hk => nomatch hk)
    (x := ⟨fcc 'm' 'e' 't' 'x', zeros, dref, ⟨inMemory a, inMemory b, inMemory c⟩, []⟩) rfl ⟨rfl, hd⟩
    hg ha hb hc rfl (by simp [wire])).1
  refine h.trans ?_
  simp [Sample.bytes, Kind.fields, Kind.last, wire, strWire]

/-- The same of text metadata. -/
theorem c90_text {dref : Nat} (hd : dref < 65536) {a b : Option Bytes} (ha : Short 1023 a) (hb : Short 1023 b) :
    newText C dref a b = .ok (Sample.bytes (β := Bx α) ⟨fcc 'm' 'e' 't' 't', zeros, dref, .text (a.getD []) (b.getD []), []⟩) := by
  have hg : GoodType (fcc 'm' 'e' 't' 't') := by unfold GoodType; decide
  have h := (c70_text_partial (C := boxes C) (ks := []) (fun k hk => nomatch hk)
    (x := ⟨fcc 'm' 'e' 't' 't', zeros, dref, ⟨inMemory a, inMemory b⟩, []⟩) rfl ⟨rfl, hd⟩
    hg ha hb rfl (by simp [wire])).1
  refine h.trans ?_
  simp [Sample.bytes, Kind.fields, Kind.last, wire, strWire]

/-! ## Examples -/

/-- An audio description with an elementary stream descriptor and bit rates. -/
def ent : Sample (Bx Tree.Tree) :=
  ⟨fcc 'm' 'p' '4' 'a', six, 1, .audio stereo, [esdsKid 0 0 Descr.audio, btrtKid 6144 128000 96000]⟩

theorem es_ok : EsdsOk 0 0 Descr.audio := ⟨by omega, by omega, Descr.audio_ok, by decide +kernel⟩

theorem ent_family : Family (boxes leafs) ent.kids := by
  intro k hk
  simp only [ent, List.mem_cons, List.not_mem_nil, or_false] at hk
  rcases hk with rfl | rfl
  · exact ⟨esds_survives es_ok.version es_ok.flags es_ok.es es_ok.length, esds_not_dropped⟩
  · exact btrt_family (by omega) (by omega) (by omega)

theorem ent_ok : ent.Ok (boxes leafs) :=
  ⟨ent_family, ⟨rfl, by decide⟩, stereo_fits, by unfold GoodType; decide, by decide +kernel⟩
theorem ent_typed : ent.Typed := by simp only [Sample.Typed, ent, Kind.types]; decide

/-- A priority of more than five bits is written over the flags: with 32 the reader takes the first two bytes of the decoder
configuration for the identifier of a clock, and the configuration is lost. -/
theorem c90_not_priority : ∃ (b : Bytes) (x : Any (Bx Tree.Tree)) (e : Es), setPriority leafs ent.bytes 32 = .ok b ∧
    openEntry (boxes leafs) .generic b = .ok x ∧ findEs (anyExt x) = .ok (0, 0, 0, e) ∧ e.priority = 0 ∧ e.ocr = 1152 ∧
    e.decoder = none ∧ Descr.audio.decoder ≠ none := by
  have h2 : ((setPriority leafs ent.bytes 32).bind fun b => (openEntry (boxes leafs) .generic b).bind fun x =>
      (findEs (anyExt x)).bind fun y => .ok (y.1, y.2.1, y.2.2.1, y.2.2.2.priority, y.2.2.2.ocr, y.2.2.2.decoder.isNone)) =
      .ok (0, 0, 0, 0, 1152, true) := by decide +kernel
  obtain ⟨b, hb⟩ : ∃ b, setPriority leafs ent.bytes 32 = .ok b := by
    cases h : setPriority leafs ent.bytes 32 with
    | ok b => exact ⟨b, rfl⟩
    | err e => rw [h] at h2; cases h2
    | ub => rw [h] at h2; cases h2
  rw [hb] at h2
  change (openEntry (boxes leafs) .generic b).bind _ = _ at h2
  cases h3 : openEntry (boxes leafs) .generic b with
  | err e => rw [h3] at h2; cases h2
  | ub => rw [h3] at h2; cases h2
  | ok x =>
    rw [h3] at h2
    change (findEs (anyExt x)).bind _ = _ at h2
    cases h4 : findEs (anyExt x) with
    | err e => rw [h4] at h2; cases h2
    | ub => rw [h4] at h2; cases h2
    | ok y =>
      rw [h4] at h2
      change Res.ok _ = _ at h2
      obtain ⟨i, v, f, e⟩ := y
      simp only [Res.ok.injEq, Prod.mk.injEq] at h2
      obtain ⟨rfl, rfl, rfl, h5, h6, h7⟩ := h2
      exact ⟨b, x, e, hb, h3, h4, h5, h6, Option.isNone_iff_eq_none.1 h7, fun h => nomatch h⟩

example := c90_get_type ent_ok ent_typed
example := c90_type ent_ok ent_typed (t := fcc 'm' 'p' '4' 's') (by unfold GoodType; decide) (by decide)
/-- `enca` instead of `mp4a`. -/
example : setType leafs ent.bytes (fcc 'e' 'n' 'c' 'a') = .ub := by
  rw [c90_not_type ent_ok ent_typed (by decide), if_pos ⟨_, List.mem_cons_self, rfl⟩]
example := c90_priority ent_ok ent_typed (pre := []) (post := [btrtKid 6144 128000 96000]) rfl (fun k hk => nomatch hk) es_ok
  (p := 31) (by omega)
/-- A language descriptor. -/
example := c90_add_desc ent_ok ent_typed (pre := []) (post := [btrtKid 6144 128000 96000]) rfl (fun k hk => nomatch hk) es_ok
  (c := .plain ⟨0x43, [101, 110, 103]⟩) ⟨by decide, by decide⟩ (by intro d hd; cases hd; decide) rfl (by decide +kernel) (by decide)
  (by decide +kernel) [1, 2]
/-- A second decoder configuration. -/
example := c90_add_desc_refused ent_ok ent_typed (pre := []) (post := [btrtKid 6144 128000 96000]) rfl
  (fun k hk => nomatch hk) (c := .dec ⟨0x40, 5, false, 0, 0, 0, none⟩)
  ⟨by decide, by decide, by decide, by decide, by intro i hi; cases hi⟩ rfl (by decide) []
example := c90_not_dims ent_ok ent_typed (by intro f h; cases h) 640 480
example := c90_add ent_ok ent_typed (k := bitrKid 1 2) ⟨by
    intro k hk
    rcases List.mem_append.1 hk with hk | hk
    · exact ent_family k hk
    · rw [List.mem_singleton] at hk
      subst hk
      exact (bitr_survives (by omega) (by omega) 0).2, ent_ok.head, stereo_fits, ent_ok.good, by decide +kernel⟩
example : getBox leafs ent.bytes (fcc 'b' 't' 'r' 't') = .ok .freed := by
  rw [c90_get ent_ok ent_typed, if_pos ⟨_, List.mem_cons_of_mem _ List.mem_cons_self, rfl⟩]

/-- A visual description, of a known type and of one that is not. -/
def vid (type : Nat) : Sample (Bx Tree.Tree) := ⟨type, six, 1, .visual hd, []⟩
theorem vid_ok {type : Nat} (h : GoodType type) : (vid type).Ok (boxes leafs) :=
  ⟨(fun k hk => nomatch hk), ⟨rfl, by show 1 < _; omega⟩, hd_fits, h, by
    simp only [vid, Sample.bytes, box_length, List.length_append, Kind.fields, Kind.last, Video.length hd_fits]
    simp [headWire, six, wire]⟩

example := c90_no_descriptor (vid_ok (type := fcc 'a' 'v' 'c' '1') (by unfold GoodType; decide))
  (by simp only [Sample.Typed, vid, Kind.types]; decide) (fun k hk => nomatch hk) 1 []
example := c90_dims (vid_ok (type := fcc 'a' 'v' 'c' '1') (by unfold GoodType; decide)) rfl
  (.inl (by simp only [Sample.Typed, vid, Kind.types]; decide)) (w := 640) (h := 480) (by omega) (by omega)
example := c90_dims (vid_ok (type := fcc 'h' 'e' 'v' '1') (by unfold GoodType; decide)) rfl (.inr (by show fcc 'h' 'e' 'v' '1' ∉ known; decide))
  (w := 640) (h := 480) (by omega) (by omega)
example := c90_get_dims (C := leafs) (s := ⟨fcc 'r' 'e' 's' 'v', six, 1, .restricted hd, []⟩)
  ⟨(fun k hk => nomatch hk), ⟨rfl, by show 1 < _; omega⟩, hd_fits, by unfold GoodType; decide, by decide +kernel⟩
  (by simp only [Sample.Typed, Kind.types]; decide) rfl
example := c90_bitrate (vid_ok (type := fcc 'a' 'v' 'c' '1') (by unfold GoodType; decide))
  (by simp only [Sample.Typed, vid, Kind.types]; decide) (buffer := 1) (max := 2) (avg := 3) ⟨by
    intro k hk
    simp only [vid, List.nil_append, List.mem_singleton] at hk
    subst hk
    exact btrt_family (by omega) (by omega) (by omega), ⟨rfl, by show 1 < _; omega⟩, hd_fits, by unfold GoodType; decide, by decide +kernel⟩
example := c90_bitrate_3gpp (vid_ok (type := fcc 's' '2' '6' '3') (by unfold GoodType; decide))
  (by simp only [Sample.Typed, vid, Kind.types]; decide) (buffer := 1) (max := 2) (avg := 3) ⟨by
    intro k hk
    simp only [vid, List.nil_append, List.mem_singleton] at hk
    subst hk
    exact (bitr_survives (by omega) (by omega) 0).2, ⟨rfl, by show 1 < _; omega⟩, hd_fits, by unfold GoodType; decide, by decide +kernel⟩
example := c90_unknown (C := leafs) (t := fcc 'd' 'v' 'h' 'e') (d := 1) (r := six) (data := [1, 2, 3])
  ⟨⟨rfl, by decide⟩, by unfold GoodType; decide, by decide, by decide⟩

def talk : Track := ⟨4, .ok 48000, fun n => if n = 7 then .ok () else .err .badParam⟩
theorem talk_of : Of talk (.audio 48000) := ⟨by decide, by decide, 48000, rfl, rfl⟩

example := c90_new (C := leafs) talk_of (dref := 1) (objectType := 0x40) (streamType := 5) (buffer := 6144) (max := 128000)
  (avg := 96000) (ocr := 7) (by omega) (by omega) (by omega) (by omega) (by omega) (by omega)
  (.some (k := 1) (data := [0x12, 0x10]) (by omega) (by omega) (by decide) [])
  (by intro d hd; cases hd; decide) (fun _ => rfl)
example := c90_not_new_error (C := leafs) talk_of (dref := 1) (objectType := 0x40) (streamType := 5) (buffer := 6144)
  (max := 128000) (avg := 96000) (ocr := 8) .nothing (by decide) rfl true
example := c90_not_new_info (C := leafs) talk_of 1 0x40 5 0 0 0 0 true
example := c90_not_new_memory (C := leafs) talk_of (dref := 1) (objectType := 0x40) (streamType := 5) (buffer := 6144)
  (max := 128000) (avg := 96000) (ocr := 7) .nothing (fun _ => rfl)
example := c90_no_scale (C := leafs) (t := ⟨4, .err .invalidMedia, fun _ => .ok ()⟩) (by decide) (by decide)
  rfl 1 0x40 5 0 0 0 0 (fcc 'a' 'c' '-' '3') none none true
example := c90_general (C := leafs) talk_of (dref := 1) (type := fcc 'a' 'c' '-' '3') (by omega) (by unfold GoodType; decide)
  (k := some (btrtKid 1 2 3)) (by
    intro k hk
    simp only [Option.toList_some, List.mem_singleton] at hk
    subst hk
    exact btrt_family (by omega) (by omega) (by omega)) (by decide +kernel)
example := c90_h263 (C := leafs) (t := ⟨2, .ok 90000, fun _ => .ok ()⟩) (dref := 1) (vendor := 1) (version := 2) (level := 10)
  (profile := 0) (by omega) (by omega) (by omega) (by omega) (by omega)
example := c90_amr (C := leafs) (t := talk) (dref := 1) (wide := true) (x := ⟨1, 2, 3, 4, 5⟩) (by omega) (by decide) (by decide)
  (by decide) (by decide) (by decide) rfl
example := c90_amrwp (C := leafs) (t := talk) (dref := 1) (vendor := 1) (version := 2) (by omega) (by omega) (by omega) rfl
example := c90_xml (C := leafs) (dref := 1) (by omega) (a := none) (b := some [117, 114, 110]) (c := some [])
  ⟨by simp, by simp⟩ ⟨by simp, by simp⟩ ⟨by simp, by simp⟩
example := c90_text (C := leafs) (dref := 1) (by omega) (a := none) (b := some [117, 114, 110]) ⟨by simp, by simp⟩
  ⟨by simp, by simp⟩

/-- A rate of 96000 is none in a general description, and 30464 in one of AMR. -/
theorem c90_not_rate : ∃ t : Track, t.timeScale = .ok 96000 ∧
    newGeneral leafs t 1 (fcc 's' 'a' 'm' 'r') none =
      .ok (Sample.bytes (β := Bx Tree.Tree) ⟨fcc 's' 'a' 'm' 'r', zeros, 1, .audio (freshAudio 0), []⟩) ∧
    newAmr leafs t 1 false ⟨1, 2, 3, 4, 5⟩ =
      .ok (Sample.bytes (β := Bx Tree.Tree) ⟨fcc 's' 'a' 'm' 'r', zeros, 1, .audio (freshAudio 30464), [damrKid ⟨1, 2, 3, 4, 5⟩]⟩) := by
  refine ⟨⟨4, .ok 96000, fun _ => .ok ()⟩, rfl, ?_, ?_⟩ <;> decide +kernel

end Verif.Sde
