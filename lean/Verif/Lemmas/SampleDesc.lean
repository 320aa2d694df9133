import Verif.Spec.SampleDesc
import Verif.Props.C68
import Verif.Props.C70
import Verif.Props.C79

/-!
# Lemmas on sample descriptions in handles
-/

namespace Verif.Sde

open Verif.Ent
open Verif.Descr hiding audio audio_ok insert
open Verif.Rows (Btrt Damr dawpSerialize dawpParse typeBtrt typeDamr typeDawp)
open Verif.Jp2 (H263 typeD263)

variable {α β : Type} {K : Class β}

/-! ## Whole entries -/

/-- In each class the entry survives. -/
theorem Sample.Ok.survives {s : Sample β} (h : s.Ok K) :
    match s.kind with
    | .plain => Survives (plain K) s.type ⟨s.type, s.reserved, s.dref, (), vals s.kids⟩ s.bytes
    | .visual f => Survives (visual K) s.type ⟨s.type, s.reserved, s.dref, f, vals s.kids⟩ s.bytes
    | .audio f => Survives (audio K) s.type ⟨s.type, s.reserved, s.dref, (f, noQt), vals s.kids⟩ s.bytes
    | .encVisual f p => Survives (encVisual K) s.type ⟨s.type, s.reserved, s.dref, f, vals s.kids, p.map (·.val)⟩ s.bytes
    | .encAudio f p => Survives (encAudio K) s.type ⟨s.type, s.reserved, s.dref, f, vals s.kids, p.map (·.val)⟩ s.bytes
    | .restricted f => Survives (restricted K) s.type ⟨s.type, s.reserved, s.dref, f, vals s.kids⟩ s.bytes
    | .xml a b c => Survives (xmlMeta K) s.type
        ⟨s.type, s.reserved, s.dref, ⟨some (a ++ [0]), some (b ++ [0]), some (c ++ [0])⟩, vals s.kids⟩ s.bytes
    | .text a b => Survives (textMeta K) s.type
        ⟨s.type, s.reserved, s.dref, ⟨some (a ++ [0]), some (b ++ [0])⟩, vals s.kids⟩ s.bytes
    | .mebx => Survives (mebx K) s.type
        ⟨s.type, s.reserved, s.dref, s.kids.any fun k => k.type = fcc 'k' 'e' 'y' 's', vals s.kids⟩ s.bytes := by
  obtain ⟨t, r, d, k, ks⟩ := s
  obtain ⟨hk, hh, hf, hg, hs⟩ := h
  unfold Sample.bytes at hs ⊢
  simp only [box_length, List.length_append, headWire_length hh] at hs
  dsimp only at hk hh hf hg
  cases k with
  | plain =>
    simp only [Kind.fields, Kind.last, List.append_nil, List.nil_append, List.length_nil] at hs ⊢
    exact c70_plain (x := ⟨t, r, d, (), vals ks⟩) hk rfl hh hg (by omega)
  | visual f =>
    simp only [Kind.fields, Kind.last, List.append_nil, Video.length hf, List.length_nil] at hs ⊢
    exact c70_visual (x := ⟨t, r, d, f, vals ks⟩) hk rfl hh hg hf (by omega)
  | audio f =>
    simp only [Kind.fields, Kind.last, List.append_nil, Audio.length hf, List.length_nil] at hs ⊢
    exact c70_audio_partial (x := ⟨t, r, d, (f, noQt), vals ks⟩) hk rfl hh hg hf rfl (by omega)
  | encVisual f p =>
    simp only [Kind.fields, Kind.last, Video.length hf.1] at hs ⊢
    exact c70_encVisual (x := ⟨t, r, d, f, vals ks, p.map (·.val)⟩) hk hf.2.1 hf.2.2.1 hf.2.2.2 rfl rfl hh hg hf.1 (by omega)
  | encAudio f p =>
    simp only [Kind.fields, Kind.last, Audio.length hf.1] at hs ⊢
    exact c70_encAudio (x := ⟨t, r, d, f, vals ks, p.map (·.val)⟩) hk hf.2.1 hf.2.2.1 hf.2.2.2 rfl rfl hh hg hf.1 (by omega)
  | restricted f =>
    simp only [Kind.fields, Kind.last, List.append_nil, Video.length hf, List.length_nil] at hs ⊢
    exact c70_restricted (x := ⟨t, r, d, f, vals ks⟩) hk rfl hh hg hf (by omega)
  | xml a b c =>
    simp only [Kind.fields, Kind.last, List.append_nil, List.length_nil] at hs ⊢
    obtain ⟨h1, h2, h3⟩ := c70_xml_partial (x := ⟨t, r, d, ⟨some (a ++ [0]), some (b ++ [0]), some (c ++ [0])⟩, vals ks⟩)
      hk rfl hh hg hf.1 hf.2.1 hf.2.2 rfl (by omega)
    exact ⟨h2, h1, h3⟩
  | text a b =>
    simp only [Kind.fields, Kind.last, List.append_nil, List.length_nil] at hs ⊢
    obtain ⟨h1, h2, h3⟩ := c70_text_partial (x := ⟨t, r, d, ⟨some (a ++ [0]), some (b ++ [0])⟩, vals ks⟩)
      hk rfl hh hg hf.1 hf.2 rfl (by omega)
    exact ⟨h2, h1, h3⟩
  | mebx =>
    simp only [Kind.fields, Kind.last, List.append_nil, List.nil_append, List.length_nil] at hs ⊢
    exact c70_mebx (x := ⟨t, r, d, ks.any fun k => k.type = fcc 'k' 'e' 'y' 's', vals ks⟩) hk rfl hh hg hf rfl (by omega)

theorem Sample.Ok.store {s : Sample β} (h : s.Ok K) : store K s.entry = .ok s.bytes := by
  have := h.survives
  unfold Sde.store Sample.entry
  cases hk : s.kind <;> simp only [hk] at this <;> exact this.write

theorem Sample.Ok.listed {s : Sample β} (h : s.Ok K) (ht : s.Typed) : Listed K s.type s.entry s.bytes := by
  have := h.survives
  unfold Sample.Typed Kind.types at ht
  unfold Sample.entry
  cases hk : s.kind <;> simp only [hk, List.mem_singleton] at this ht ⊢
  case plain => rw [ht] at this ⊢; exact .plain this
  case visual => exact .visual ht this
  case audio => exact .audio ht this
  case encVisual => rw [ht] at this ⊢; exact .encVisual this
  case encAudio => rw [ht] at this ⊢; exact .encAudio this
  case restricted => rw [ht] at this ⊢; exact .restricted this
  case xml => rw [ht] at this ⊢; exact .xmlMeta this
  case text => rw [ht] at this ⊢; exact .textMeta this
  case mebx => rw [ht] at this ⊢; exact .mebx this

theorem protos_iff (t : Nat) : t ∈ protos ↔ t ∈ known := by
  have h1 : ∀ t ∈ known, t ∈ protos := by decide
  have h2 : ∀ t ∈ protos, t ∈ known := by decide
  exact ⟨h2 t, h1 t⟩

theorem typed_protos {s : Sample β} (ht : s.Typed) : s.type ∈ protos := by
  rw [protos_iff]
  unfold Sample.Typed Kind.types at ht
  simp only [known, List.mem_append]
  cases hk : s.kind <;> simp only [hk, List.mem_singleton] at ht
  case visual => exact .inl (.inl ht)
  case audio => exact .inl (.inr ht)
  all_goals (right; rw [ht]; decide)

theorem parseAtom_congr {γ : Type} {p q : Hdr → P γ} {inp r : Bytes} {x : γ} {h : Hdr}
    (hp : parseAtom p inp = .ok (x, h, r)) (hq : q h = p h) : parseAtom q inp = .ok (x, h, r) := by
  unfold parseAtom at hp ⊢
  split at hp
  · rename_i h' r' e
    split at hp
    · rename_i a s e2
      simp only [Res.ok.injEq, Prod.mk.injEq] at hp
      obtain ⟨rfl, rfl, rfl⟩ := hp
      rw [hq, e2]
    · cases hp
    · cases hp
  · cases hp
  · cases hp

theorem open_of {x : Any β} {b : Bytes} {d : Dflt} {h : Hdr} (hp : parseAtom (parseBy K d) b = .ok (x, h, [])) :
    openEntry K d b = .ok x := by
  unfold openEntry
  rw [hp]

theorem Sample.Ok.opened {s : Sample β} (h : s.Ok K) (ht : s.Typed) (d : Dflt) : openEntry K d s.bytes = .ok s.entry := by
  obtain ⟨_, hr⟩ := (c70_any (h.listed ht)).read
  obtain ⟨hd, h1, _, h3⟩ := hr []
  rw [List.append_nil] at h3
  refine open_of (h := hd) (parseAtom_congr h3 ?_)
  unfold parseBy
  rw [if_pos (by rw [h1]; exact typed_protos ht)]
  rfl

/-- An entry of a type that is not listed, for the functions on dimensions. -/
theorem Sample.Ok.opened_visual {s : Sample β} (h : s.Ok K) {f : Video} (hk : s.kind = .visual f) (ht : s.type ∉ protos) :
    openEntry K .visual s.bytes = .ok s.entry := by
  have hs := h.survives
  rw [hk] at hs
  simp only at hs
  obtain ⟨hd, h1, _, h3⟩ := hs.read.2 []
  rw [List.append_nil] at h3
  have := parseAtom_as (q := parseBy K .visual) (f := Any.visual) h3 (by
    unfold parseBy
    rw [if_neg (by rw [h1]; exact ht)])
  rw [open_of this]
  unfold Sample.entry
  rw [hk]

/-! ## Members of entries -/

theorem entry_ext (s : Sample β) : anyExt s.entry = vals s.kids := by
  unfold Sample.entry anyExt
  cases s.kind <;> rfl

theorem entry_type (s : Sample β) : anyType s.entry = s.type := by
  unfold Sample.entry anyType
  cases s.kind <;> rfl

theorem entry_setType (s : Sample β) (t : Nat) : setAnyType t s.entry = { s with type := t }.entry := by
  obtain ⟨t, r, d, k, ks⟩ := s
  cases k <;> rfl

/-- The member that tells whether there are keys is not written. -/
theorem store_setExt (s : Sample β) (ks : List (Kid β)) :
    store K (setAnyExt (vals ks) s.entry) = store K { s with kids := ks }.entry := by
  obtain ⟨t, r, d, k, ks'⟩ := s
  cases k <;> rfl

theorem listSize_last {l : List β} {x y : β} (h : K.size x = K.size y) (n : Nat) :
    listSize K n (l ++ [x]) = listSize K n (l ++ [y]) := by
  induction l generalizing n with
  | nil => simp only [List.nil_append, listSize, h]
  | cons a l ih => simp only [List.cons_append, listSize, ih]

theorem serList_last {l : List β} {x y : β} (h : K.size x = K.size y) (hs : K.ser x = K.ser y) :
    serList K (l ++ [x]) = serList K (l ++ [y]) := by
  induction l with
  | nil => simp only [List.nil_append, serList, h, hs]
  | cons a l ih => simp only [List.cons_append, serList, ih]

/-- A box at the end is written as another one that is written like it. -/
theorem store_last (e : Any β) {l : List β} {x y : β} (h : K.size x = K.size y) (hs : K.ser x = K.ser y) :
    store K (setAnyExt (l ++ [x]) e) = store K (setAnyExt (l ++ [y]) e) := by
  cases e <;>
    simp only [store, setAnyExt, anySize, anySer, plain, visual, audio, restricted, encVisual, encAudio, xmlMeta, textMeta, mebx,
      generic, Entry.serialize, EncEntry.serialize, EncEntry.calcSize, listSize_last h, serList_last h hs]

theorem fits_congr {ks ks' : List (Kid β)} (h : ks'.map (·.type) = ks.map (·.type)) {k : Kind β} (hk : k.Fits K ks) :
    k.Fits K ks' := by
  have hm : ∀ t, (∃ k ∈ ks', k.type = t) → ∃ k ∈ ks, k.type = t := by
    intro t ⟨k, h1, h2⟩
    have : t ∈ ks'.map (·.type) := List.mem_map.2 ⟨k, h1, h2⟩
    rw [h] at this
    exact List.mem_map.1 this
  have hp : ∀ s, Protected K s ks → Protected K s ks' := by
    intro s ⟨h1, h2, h3⟩
    refine ⟨h1, ?_, h3⟩
    intro k hk e
    obtain ⟨k', h1', h2'⟩ := hm _ ⟨k, hk, e⟩
    exact h2 k' h1' h2'
  cases k with
  | plain => trivial
  | visual f => exact hk
  | restricted f => exact hk
  | audio f => exact hk
  | encVisual f s => exact ⟨hk.1, hp s hk.2⟩
  | encAudio f s => exact ⟨hk.1, hp s hk.2⟩
  | xml a b c => exact hk
  | text a b => exact hk
  | mebx =>
    have e : ∀ l : List (Kid β), (l.filter fun k => k.type = fcc 'k' 'e' 'y' 's').length =
        ((l.map (·.type)).filter fun t => t = fcc 'k' 'e' 'y' 's').length := by
      intro l
      rw [List.filter_map, List.length_map]
      rfl
    show (ks'.filter fun k => k.type = fcc 'k' 'e' 'y' 's').length ≤ 1
    rw [e, h, ← e]
    exact hk

/-- One box is exchanged for another of the same type. -/
theorem Sample.Ok.exchange {s : Sample β} (h : s.Ok K) {pre post : List (Kid β)} {k k' : Kid β}
    (hk : s.kids = pre ++ k :: post) (ht : k'.type = k.type) (hs : Survives K k'.type k'.val k'.bytes)
    (hz : 4096 + { s with kids := pre ++ k' :: post }.bytes.length < 4294967296) :
    { s with kids := pre ++ k' :: post }.Ok K := by
  have hf := h.family
  have hfit := h.fits
  rw [hk] at hf hfit
  refine ⟨?_, h.head, fits_congr (by simp [ht]) hfit, h.good, hz⟩
  intro x hx
  simp only [List.mem_append, List.mem_cons] at hx
  rcases hx with hx | rfl | hx
  · exact hf x (by simp [hx])
  · refine ⟨hs, ?_⟩
    rw [ht]
    exact (hf k (by simp)).2
  · exact hf x (by simp [hx])

/-! ## Entries of other types -/

theorem RawOk.opened {t d : Nat} {r data : Bytes} (h : RawOk t r d data) :
    openEntry K .generic (rawBytes t r d data) = .ok (.generic ⟨t, r, d, data, []⟩) := by
  have hs := c70_generic_partial (C := K) (x := ⟨t, r, d, data, []⟩) rfl h.head h.good h.size
  obtain ⟨hd, h1, _, h3⟩ := hs.read.2 []
  rw [List.append_nil] at h3
  refine open_of (parseAtom_as (q := parseBy K .generic) (f := Any.generic) h3 ?_)
  unfold parseBy
  rw [if_neg (by rw [h1, protos_iff]; exact h.unknown)]

theorem raw_store {t d : Nat} {r data : Bytes} {ks : List (Kid β)} (hh : HeadFits r d) (hg : GoodType t) (hk : Family K ks)
    (hl : 16 + data.length + (wire ks).length < 4294967296) :
    store K (.generic ⟨t, r, d, data, vals ks⟩) = .ok (rawBytes t r d (data ++ wire ks)) :=
  (c70_generic_flat hk (x := ⟨t, r, d, data, vals ks⟩) rfl hh hg hl).1

/-! ## Boxes -/

theorem survives_roundTrip {γ : Type} {C : Class β} {x : β} {type size : Nat} {ser : W} {body : Hdr → P γ} {v : γ} {f : γ → β}
    {payload : Bytes} (h : BoxRoundTrip size ser body v (box type payload)) (hz : C.size x = size) (hs : C.ser x = ser)
    (hp : ∀ hd : Hdr, hd.type = type → C.parse hd = P.as f (body hd)) (hx : f v = x)
    (hl : 8 + payload.length < 4294967296) (ht : GoodType type) : Survives C type x (box type payload) := by
  refine ⟨by rw [hz, h.length], by rw [hz, hs]; exact h.write, by rw [box_length]; omega, fun rest => ?_⟩
  obtain ⟨hd, hr⟩ := h.read rest
  have hh : hd = ⟨8 + payload.length, type, [], 0, 8⟩ := by
    rw [box_eq] at hr
    unfold parseAtom at hr
    rw [List.append_assoc, parseHeader_small hl (by omega) ht.2.1 ht.uuid _ (by simp)] at hr
    simp only at hr
    split at hr
    · simp only [Res.ok.injEq, Prod.mk.injEq] at hr
      exact hr.2.1.symm
    · cases hr
    · cases hr
  refine ⟨hd, by rw [hh], by rw [hh, box_length], ?_⟩
  have := parseAtom_as (q := C.parse) (f := f) hr (hp hd (by rw [hh]))
  rw [this, hx]

variable {C : Class α}

theorem esds_survives {version flags : Nat} {e : Es} (hv : version < 256) (hf : flags < 2 ^ 24) (he : EsOk e)
    (h : (esPayload e).length < 2 ^ 28) :
    Survives (boxes C) (esdsKid (α := α) version flags e).type (esdsKid version flags e).val
      (esdsKid (α := α) version flags e).bytes := by
  show Survives (boxes C) (fcc 'e' 's' 'd' 's') _ _
  have hd : (esBytes e).length = 5 + (esPayload e).length := descr_length (by omega) _ _
  refine survives_roundTrip (f := fun p => .esds p.1.1 p.1.2 p.2) (c49_esds_box version flags e hv hf he h) rfl rfl ?_ rfl ?_
    (by unfold GoodType; decide)
  · intro hd' ht
    unfold boxes
    simp only
    rw [if_pos (by rw [ht]; decide)]
  · simp only [List.length_append, be_length]; omega

theorem esds_not_dropped {version flags : Nat} {e : Es} : ¬ Dropped (esdsKid (α := α) version flags e).type := by
  show ¬ Dropped (fcc 'e' 's' 'd' 's')
  unfold Dropped; decide

theorem btrt_family {b m a : Nat} (h1 : b < 2 ^ 32) (h2 : m < 2 ^ 32) (h3 : a < 2 ^ 32) :
    Survives (boxes C) (btrtKid (α := α) b m a).type (btrtKid b m a).val (btrtKid (α := α) b m a).bytes ∧
      ¬ Dropped (btrtKid (α := α) b m a).type := by
  show Survives (boxes C) (fcc 'b' 't' 'r' 't') _ _ ∧ ¬ Dropped (fcc 'b' 't' 'r' 't')
  refine ⟨?_, by unfold Dropped; decide⟩
  refine survives_roundTrip (f := .rate (fcc 'b' 't' 'r' 't')) (Rows.c68_btrt ⟨b, m, a⟩ h1 h2 h3)
    (by simp only [btrtKid, boxes]; decide)
    (by show Btrt.serialize _ _ = _; congr 1) ?_ rfl (by simp) (by unfold GoodType; decide)
  intro hd ht
  unfold boxes
  simp only
  rw [if_neg (by rw [ht]; decide), if_pos (by rw [ht]; decide), ht]

theorem bitr_survives {m a : Nat} (h2 : m < 2 ^ 32) (h3 : a < 2 ^ 32) (b : Nat) :
    runW ((boxes C).size (.rate typeBitr ⟨b, m, a⟩)) ((boxes C).ser (.rate typeBitr ⟨b, m, a⟩)) =
        .ok (bitrKid (α := α) m a).bytes ∧
      (Survives (boxes C) (bitrKid (α := α) m a).type (bitrKid m a).val (bitrKid (α := α) m a).bytes ∧
        ¬ Dropped (bitrKid (α := α) m a).type) := by
  have hw : ∀ b, EmitsFull ((boxes C).ser (.rate typeBitr ⟨b, m, a⟩))
      ((be 4 (8 + (be 4 a ++ be 4 m).length) ++ be 4 (fcc 'b' 'i' 't' 'r')) ++ (be 4 a ++ be 4 m)) := by
    intro b
    show EmitsFull (Btrt.serialize typeBitr ⟨b, m, a⟩) _
    unfold Btrt.serialize
    rw [if_neg (by decide)]
    have e : Btrt.calcSize typeBitr = 8 + (be 4 a ++ be 4 m).length := by simp; decide
    rw [e]
    exact (emits_serBase _ _).then ((emits_put32 _).then ((emits_put32 _).thenAssert))
  have hz : ∀ b, (boxes C).size (.rate typeBitr ⟨b, m, a⟩) = 8 + (be 4 a ++ be 4 m).length := by
    intro b
    simp only [boxes, List.length_append, be_length]
    decide
  refine ⟨?_, ?_, by show ¬ Dropped (fcc 'b' 'i' 't' 'r'); unfold Dropped; decide⟩
  · rw [hz b, (hw b).runW (by simp only [List.length_append, be_length]) (by simp)]
    simp only [bitrKid, box_eq]
  · show Survives (boxes C) (fcc 'b' 'i' 't' 'r') _ _
    refine survives_of (hz 0) (hw 0) ?_ (by simp) (by unfold GoodType; decide)
    unfold boxes
    simp only
    rw [if_neg (by decide), if_pos (by decide)]
    refine Parses.at (Parses.map _ ?_) _
    unfold Btrt.parse
    simp only
    rw [if_neg (by decide)]
    refine (parses_get32' h3).bind ((parses_get32' h2).bind_nil ?_)
    exact parses_pure _

theorem damr_family {x : Damr} (h0 : x.vendor < 2 ^ 32) (h1 : x.decoder < 2 ^ 8) (h2 : x.modeSet < 2 ^ 16) (h3 : x.period < 2 ^ 8)
    (h4 : x.frames < 2 ^ 8) :
    Survives (boxes C) (damrKid (α := α) x).type (damrKid x).val (damrKid (α := α) x).bytes ∧
      ¬ Dropped (damrKid (α := α) x).type := by
  show Survives (boxes C) (fcc 'd' 'a' 'm' 'r') _ _ ∧ ¬ Dropped (fcc 'd' 'a' 'm' 'r')
  refine ⟨?_, by unfold Dropped; decide⟩
  refine survives_roundTrip (f := .damr) (Rows.c68_damr x h0 h1 h2 h3 h4) rfl rfl ?_ rfl (by simp) (by unfold GoodType; decide)
  intro hd ht
  unfold boxes
  simp only
  rw [if_neg (by rw [ht]; decide), if_neg (by rw [ht]; decide), if_pos (by rw [ht]; decide)]

theorem dawp_family {v d : Nat} (h0 : v < 2 ^ 32) (h1 : d < 2 ^ 8) :
    Survives (boxes C) (dawpKid (α := α) v d).type (dawpKid v d).val (dawpKid (α := α) v d).bytes ∧
      ¬ Dropped (dawpKid (α := α) v d).type := by
  show Survives (boxes C) (fcc 'd' 'a' 'w' 'p') _ _ ∧ ¬ Dropped (fcc 'd' 'a' 'w' 'p')
  refine ⟨?_, by unfold Dropped; decide⟩
  refine survives_roundTrip (f := fun p => .dawp p.1 p.2) (Rows.c68_dawp v d h0 h1) rfl rfl ?_ rfl (by simp)
    (by unfold GoodType; decide)
  intro hd ht
  unfold boxes
  simp only
  rw [if_neg (by rw [ht]; decide), if_neg (by rw [ht]; decide), if_neg (by rw [ht]; decide), if_pos (by rw [ht]; decide)]

theorem d263_family {v d l p : Nat} (h1 : v < 2 ^ 32) (h2 : d < 2 ^ 8) (h3 : l < 2 ^ 8) (h4 : p < 2 ^ 8) :
    Survives (boxes C) (d263Kid (α := α) v d l p).type (d263Kid v d l p).val (d263Kid (α := α) v d l p).bytes ∧
      ¬ Dropped (d263Kid (α := α) v d l p).type := by
  show Survives (boxes C) (fcc 'd' '2' '6' '3') _ _ ∧ ¬ Dropped (fcc 'd' '2' '6' '3')
  refine ⟨?_, by unfold Dropped; decide⟩
  have h := Jp2.c79_h263 C v d l p [] (by simp) h1 h2 h3 h4 (by simp [wire])
  have e : Jp2.H263.payload v d l p ([] : List (Kid α)) = be 4 v ++ (be 1 d ++ (be 1 l ++ be 1 p)) := by
    simp [Jp2.H263.payload, wire]
  rw [e] at h
  refine survives_roundTrip (f := .d263) h rfl rfl ?_ rfl (by simp) (by unfold GoodType; decide)
  intro hd ht
  unfold boxes
  simp only
  rw [if_neg (by rw [ht]; decide), if_neg (by rw [ht]; decide), if_neg (by rw [ht]; decide), if_neg (by rw [ht]; decide),
    if_pos (by rw [ht]; decide)]

/-! ## Lists -/

/-- A box that is read has the type of its header. -/
theorem type_of_reads {t : Nat} {x : Bx α} {b : Bytes} (h : Reads (boxes C) t x b) : x.type = t := by
  obtain ⟨hd, h1, _, h3⟩ := h.2 []
  rw [← h1]
  unfold parseAtom at h3
  split at h3
  · split at h3
    · rename_i e
      simp only [Res.ok.injEq, Prod.mk.injEq] at h3
      obtain ⟨rfl, rfl, _⟩ := h3
      revert e
      unfold boxes
      simp only
      have as : ∀ {γ : Type} {f : γ → Bx α} {p : P γ} {s s' x}, P.as f p s = .ok (x, s') → ∃ v, x = f v := by
        intro γ f p s s' x hp
        unfold P.as at hp
        rw [P.bind_apply] at hp
        split at hp
        · cases hp; exact ⟨_, rfl⟩
        · cases hp
        · cases hp
      split
      · rename_i c; intro e; obtain ⟨v, rfl⟩ := as e; exact c.symm
      · split
        · intro e; obtain ⟨v, rfl⟩ := as e; rfl
        · split
          · rename_i c; intro e; obtain ⟨v, rfl⟩ := as e; exact c.symm
          · split
            · rename_i c; intro e; obtain ⟨v, rfl⟩ := as e; exact c.symm
            · split
              · rename_i c; intro e; obtain ⟨v, rfl⟩ := as e; exact c.symm
              · intro e; obtain ⟨v, rfl⟩ := as e; rfl
    · cases h3
    · cases h3
  · cases h3
  · cases h3

theorem vals_ne {t : Nat} {ks : List (Kid (Bx α))} (hf : Family (boxes C) ks) (h : ∀ k ∈ ks, k.type ≠ t) :
    ∀ b ∈ vals ks, b.type ≠ t := by
  intro b hb
  obtain ⟨k, hk, rfl⟩ := List.mem_map.1 hb
  rw [type_of_reads (hf k hk).1.read]
  exact h k hk

theorem findAt_skip {t : Nat} {l m : List (Bx α)} (h : ∀ b ∈ l, b.type ≠ t) :
    findAt t (l ++ m) = (findAt t m).bind fun i => .ok (l.length + i) := by
  induction l with
  | nil =>
    simp only [List.nil_append, List.length_nil, Nat.zero_add]
    cases findAt t m <;> rfl
  | cons b l ih =>
    rw [List.cons_append, findAt, if_neg (h b (by simp)), ih (fun x hx => h x (by simp [hx]))]
    cases findAt t m with
    | ok i => show Res.ok _ = Res.ok _; simp only [List.length_cons]; congr 1; omega
    | err e => rfl
    | ub => rfl

theorem findAt_none {t : Nat} {l : List (Bx α)} (h : ∀ b ∈ l, b.type ≠ t) : findAt t l = .err .notFound := by
  have := findAt_skip (m := []) h
  rw [List.append_nil] at this
  rw [this]
  rfl

theorem findAt_here {t : Nat} {l m : List (Bx α)} {b : Bx α} (h : ∀ b ∈ l, b.type ≠ t) (hb : b.type = t) :
    findAt t (l ++ b :: m) = .ok l.length := by
  rw [findAt_skip h, findAt, if_pos hb]
  rfl

theorem findEs_here {pre post : List (Kid (Bx α))} {v f : Nat} {e : Es} (hf : Family (boxes C) pre)
    (h : ∀ k ∈ pre, k.type ≠ fcc 'e' 's' 'd' 's') :
    findEs (vals (pre ++ esdsKid v f e :: post)) = .ok (pre.length, v, f, e) := by
  have e1 : vals (pre ++ esdsKid v f e :: post) = vals pre ++ .esds v f (some e) :: vals post := by simp [vals, esdsKid]
  have e2 : typeEsds = fcc 'e' 's' 'd' 's' := by decide
  have hl : (vals pre).length = pre.length := by simp [vals]
  unfold findEs
  rw [e1, findAt_here (t := typeEsds) (by rw [e2]; exact vals_ne hf h) rfl, ← hl]
  simp

theorem findEs_none {ks : List (Kid (Bx α))} (hf : Family (boxes C) ks) (h : ∀ k ∈ ks, k.type ≠ fcc 'e' 's' 'd' 's') :
    findEs (vals ks) = .err .badParam := by
  have e2 : typeEsds = fcc 'e' 's' 'd' 's' := by decide
  unfold findEs
  rw [findAt_none (by rw [e2]; exact vals_ne hf h)]

theorem set_here {pre post : List (Kid (Bx α))} {v f : Nat} {e e' : Es} :
    (vals (pre ++ esdsKid v f e :: post)).set pre.length (.esds v f (some e')) = vals (pre ++ esdsKid v f e' :: post) := by
  have hl : (vals pre).length = pre.length := by simp [vals]
  have e1 : ∀ e, vals (pre ++ esdsKid v f e :: post) = vals pre ++ .esds v f (some e) :: vals post := by
    intro e; simp [vals, esdsKid]
  rw [e1, e1, ← hl]
  simp

theorem delete_freed {pre : List (Bx α)} {post : List (Cell (Bx α))} {t : Nat} (h : ∀ b ∈ pre, b.type ≠ t) :
    deleteBox t (pre.map Cell.live ++ .freed :: post) = .ub := by
  induction pre with
  | nil => rfl
  | cons b l ih =>
    rw [List.map_cons, List.cons_append, deleteBox, if_neg (h b (by simp)), ih (fun x hx => h x (by simp [hx]))]
    rfl

/-- The exchange of the descriptor, with all that is said of the result. -/
theorem es_exchange {s : Sample (Bx α)} (hs : s.Ok (boxes C)) {pre post : List (Kid (Bx α))} {v f : Nat}
    {e e' : Es} (hk : s.kids = pre ++ esdsKid v f e :: post) (he : EsdsOk v f e')
    (hz : 4096 + { s with kids := pre ++ esdsKid v f e' :: post }.bytes.length < 4294967296) :
    store (boxes C) (setAnyExt ((anyExt s.entry).set pre.length (.esds v f (some e'))) s.entry) =
        .ok { s with kids := pre ++ esdsKid v f e' :: post }.bytes ∧
      { s with kids := pre ++ esdsKid v f e' :: post }.Ok (boxes C) := by
  have h := hs.exchange hk (k' := esdsKid v f e') rfl (esds_survives he.version he.flags he.es he.length) hz
  refine ⟨?_, h⟩
  rw [entry_ext, hk, set_here, store_setExt, h.store]

theorem insert_joined (e : Es) (c : Child) :
    Descr.insert e c = match joined e c with | some e' => .ok e' | none => .err .invalidMedia := by
  cases c with
  | dec d => unfold Descr.insert joined; cases e.decoder <;> simp
  | sl d => unfold Descr.insert joined; cases e.sl <;> simp
  | ptr d => rfl
  | plain d =>
    simp only [Descr.insert, joined]
    by_cases h9 : d.tag = 9
    · simp only [if_pos h9]; cases e.ipi <;> simp
    · simp only [if_neg h9]
      by_cases h12 : d.tag = 12
      · simp only [if_pos h12]; cases e.qos <;> simp
      · simp only [if_neg h12]
        split
        · rfl
        · split <;> rfl

/-! ## New entries -/

theorem freshVideo_fits : freshVideo.Fits :=
  ⟨rfl, by decide, by decide, by decide, by decide, by decide, by decide, by decide, rfl, by decide, by decide⟩

theorem freshAudio_fits {r : Nat} (h : r < 65536) : (freshAudio r).Fits :=
  ⟨rfl, by show 2 < _; omega, by show 16 < _; omega, by show 0 < _; omega, h, by show 0 < _; omega⟩

theorem put16_mod (n : Nat) : put16 n = put16 (n % 65536) := by
  have h1 : n >>> 8 &&& 255 = (n % 65536) >>> 8 &&& 255 := by
    rw [show (255 : Nat) = 2 ^ 8 - 1 from rfl, Nat.and_two_pow_sub_one_eq_mod, Nat.and_two_pow_sub_one_eq_mod,
      Nat.shiftRight_eq_div_pow, Nat.shiftRight_eq_div_pow]
    omega
  have h2 : n &&& 255 = n % 65536 &&& 255 := by
    rw [show (255 : Nat) = 2 ^ 8 - 1 from rfl, Nat.and_two_pow_sub_one_eq_mod, Nat.and_two_pow_sub_one_eq_mod]
    omega
  unfold put16
  rw [← h1, ← h2]

theorem newVideo_put : newVideo.put = freshVideo.put := by
  unfold Video.put newVideo freshVideo
  simp only
  rw [put16_mod 4294967295]

theorem newAudio_put (s : Nat) : (newAudio s).put = (freshAudio (s % 65536)).put := by
  unfold Audio.put newAudio freshAudio
  simp only
  rw [put16_mod s]

theorem store_video (t d : Nat) (r : Bytes) (l : List β) :
    store K (.visual ⟨t, r, d, newVideo, l⟩) = store K (.visual ⟨t, r, d, freshVideo, l⟩) := by
  simp only [store, anySize, anySer, visual, Entry.serialize, newVideo_put]

theorem store_audio (t d s : Nat) (r : Bytes) (l : List β) :
    store K (.audio ⟨t, r, d, (newAudio s, noQt), l⟩) = store K (.audio ⟨t, r, d, (freshAudio (s % 65536), noQt), l⟩) := by
  simp only [store, anySize, anySer, audio, Entry.serialize, newAudio_put]

theorem fresh_length (o st b m a : Nat) (i : Option Default) :
    (esPayload (freshEs o st b m a i)).length = 27 + (match i with | none => 0 | some d => 5 + d.data.length) := by
  cases i <;>
    simp [esPayload, esHead, esChildren, freshEs, childBytes, slBytes, slPayload, decBytes, decPayload, optBytes, plainBytes,
      descr_length, Sl.zero] <;> omega

theorem fresh_ok {o st b m a : Nat} {i : Option Default} (h1 : o < 256) (h2 : st < 64) (h3 : b < 16777216)
    (h4 : m < 4294967296) (h5 : a < 4294967296) (h6 : ∀ d ∈ i, d.tag = 5 ∧ d.data.length < 134217728) :
    EsdsOk 0 0 (freshEs o st b m a i) := by
  refine ⟨by omega, by omega, ?_, ?_⟩
  · constructor
    · show _ ∧ _; simp [freshEs]
    · intro d hd; cases hd; exact ⟨h1, h2, h3, ⟨h4, h5⟩, fun d hd => (h6 d hd).1⟩
    · intro c hc; cases hc; exact ⟨rfl, .inr rfl, by decide, by decide, by decide, by decide, by decide⟩
    · intro d hd; cases hd
    · intro d hd; cases hd
    · intro d hd; cases hd
    · intro d hd; cases hd
    · intro d hd; cases hd
    · intro d hd; cases hd
  · rw [fresh_length]
    cases i with
    | none => simp only; omega
    | some d => have := (h6 d rfl).2; simp only; omega

end Verif.Sde
