import Verif.Lemmas.Entries
import Verif.Lemmas.Tree

/-!
# C70: sample entries and the sample description box

The boxes in an entry are of any classes: `C` is their writer and reader, and `Family C ks` says that each of them is
written and read back by itself.
-/

namespace Verif.Ent

open Verif.Str

variable {α : Type} {C : Class α} {ks : List (Kid α)}

/-! ## Entries written and read back -/

/-- The entries of `mp4s` and of haptics: reserved bytes, the data reference index and boxes. -/
theorem c70_plain (hk : Family C ks) {x : Entry Unit α} (hx : x.ext = vals ks) (hh : HeadFits x.reserved x.dref)
    (ht : GoodType x.type) (hl : 16 + (wire ks).length < 4294967296) :
    Survives (plain C) x.type x (box x.type (headWire x.reserved x.dref ++ wire ks)) :=
  entry_survives (w := []) (put := fun _ => W.skip) hk hx hh ht hl rfl rfl emits_skip
    (entry_parse (get := pure ()) hk hx hh ((parses_pure _).at _) hl)

/-- A volumetric visual entry. -/
theorem c70_volumetric (hk : Family C ks) {x : Entry Named α} (hx : x.ext = vals ks) (hh : HeadFits x.reserved x.dref)
    (ht : GoodType x.type) (hn : x.fields.nameLength < 256) (hm : x.fields.name31.length = 31)
    (hl : 48 + (wire ks).length < 4294967296) :
    Survives (volumetric C) x.type x (box x.type (headWire x.reserved x.dref ++
      ((be 1 x.fields.nameLength ++ x.fields.name31) ++ wire ks))) := by
  have e : (be 1 x.fields.nameLength ++ x.fields.name31).length = 32 := by simp [hm]
  have hser : (volumetric C).ser x = x.serialize C ((volumetric C).size x)
      fun f => put8 f.nameLength ;; putBytes f.name31 := rfl
  refine entry_survives hk hx hh ht (by rw [e]; exact hl) (by rw [e]; rfl) hser
    ((emits_put8 _).seq (emits_bytes _)) (entry_parse hk hx hh ?_ (by rw [e]; exact hl))
  refine Parses.at ((parses_get8' hn).bind (Parses.bind_nil (parses_getBytes hm) ?_)) _
  exact parses_pure _

/-- A visual entry. -/
theorem c70_visual (hk : Family C ks) {x : Entry Video α} (hx : x.ext = vals ks) (hh : HeadFits x.reserved x.dref)
    (ht : GoodType x.type) (hf : x.fields.Fits) (hl : 86 + (wire ks).length < 4294967296) :
    Survives (visual C) x.type x (box x.type (headWire x.reserved x.dref ++ (x.fields.wire ++ wire ks))) := by
  have e := Video.length hf
  exact entry_survives hk hx hh ht (by rw [e]; exact hl) (by rw [e]; rfl) rfl x.fields.emits
    (entry_parse hk hx hh ((Video.parses hf).at _) (by rw [e]; exact hl))

/-- A restricted visual entry. -/
theorem c70_restricted (hk : Family C ks) {x : Entry Video α} (hx : x.ext = vals ks) (hh : HeadFits x.reserved x.dref)
    (ht : GoodType x.type) (hf : x.fields.Fits) (hl : 86 + (wire ks).length < 4294967296) :
    Survives (restricted C) x.type x (box x.type (headWire x.reserved x.dref ++ (x.fields.wire ++ wire ks))) := by
  have e := Video.length hf
  refine entry_survives hk hx hh ht (by rw [e]; exact hl) (by rw [e]; rfl) rfl x.fields.emits ?_
  refine ParsesAt.bind_nil (entry_parse hk hx hh ((Video.parses hf).at _) (by rw [e]; exact hl)) ?_
  refine parsesAt_bytesRead ?_
  rw [if_neg (by simp only [List.length_append, headWire_length hh]; omega)]
  exact (parses_pure _).at _

/-- An audio entry with no fields of QuickTime. The full claim, with any `x.fields.2`, is false: `c70_audio_qt_lost`. -/
theorem c70_audio_partial (hk : Family C ks) {x : Entry (Audio × Qt) α} (hx : x.ext = vals ks)
    (hh : HeadFits x.reserved x.dref) (ht : GoodType x.type) (hf : x.fields.1.Fits) (hq : x.fields.2 = noQt)
    (hl : 36 + (wire ks).length < 4294967296) :
    Survives (audio C) x.type x (box x.type (headWire x.reserved x.dref ++ (x.fields.1.wire ++ wire ks))) := by
  have e := Audio.length hf
  refine entry_survives (put := fun f => f.1.put) hk hx hh ht (by rw [e]; exact hl) (by rw [e]; rfl) rfl
    x.fields.1.emits ?_
  rw [headWire, List.append_assoc, e]
  refine ((parses_getBytes hh.1).at _).bind (((parses_get16' hh.2).at _).bind (((Audio.parses hf).at _).bind ?_))
  refine ParsesAt.bind_nil (a := (noQt, vals ks)) ?_ ?_
  · intro r
    have := audioLoop_kids (v1 := x.fields.1.reserved2[1]? == some 1) hk.readable (n := (wire ks ++ r).length + 1)
      (size := 36 + (wire ks).length) (k := 36) (qt := noQt) (acc := []) (r := r)
      (by have := readable_length hk.readable; simp only [List.length_append]; omega) rfl hl
    rw [hk.stay, List.nil_append] at this
    simp only [hh.1, be_length, e]
    exact this
  · obtain ⟨t, r, d, ⟨a, q⟩, ext⟩ := x
    simp only at hx hq
    subst hx hq
    exact (parses_pure _).at _

/-- An entry of boxed metadata: at most one table of keys. -/
theorem c70_mebx (hk : Family C ks) {x : Entry Bool α} (hx : x.ext = vals ks) (hh : HeadFits x.reserved x.dref)
    (ht : GoodType x.type) (h1 : (ks.filter fun k => k.type = fcc 'k' 'e' 'y' 's').length ≤ 1)
    (hf : x.fields = ks.any fun k => k.type = fcc 'k' 'e' 'y' 's') (hl : 16 + (wire ks).length < 4294967296) :
    Survives (mebx C) x.type x (box x.type (headWire x.reserved x.dref ++ wire ks)) := by
  have key : ∀ (ks : List (Kid α)) (a : List α) (b : Bool), Family C ks →
      (ks.filter fun k => k.type = typeKeys).length + (if b then 1 else 0) ≤ 1 →
      adds mebxAdd (a, b) ks = .ok (a ++ vals ks, b || ks.any fun k => k.type = typeKeys) := by
    intro ks
    induction ks with
    | nil => intro a b _ _; simp [adds, vals]
    | cons k ks ih =>
      intro a b hk hc
      obtain ⟨⟨_, hd⟩, h2⟩ := family_cons hk
      simp only [adds]
      rw [if_neg (fun h => hd (isFree_iff.1 h))]
      unfold mebxAdd
      by_cases hs : k.type = typeKeys
      · rw [if_pos hs]
        simp only [List.filter_cons, hs, decide_true, if_true, List.length_cons] at hc
        have hb : b = false := by
          cases b
          · rfl
          · simp at hc
        subst hb
        simp only [Bool.false_eq_true, if_false] at hc ⊢
        show adds mebxAdd (a ++ [k.val], true) ks = _
        rw [ih _ _ h2 (by rw [if_pos rfl]; omega)]
        simp [vals, hs]
      · rw [if_neg hs]
        show adds mebxAdd (a ++ [k.val], b) ks = _
        simp only [List.filter_cons, hs, decide_false, Bool.false_eq_true, if_false] at hc
        rw [ih _ _ h2 hc]
        simp [vals, hs]
  refine entry_survives (w := []) (put := fun _ => W.skip) hk hx hh ht hl rfl rfl emits_skip ?_
  rw [headWire, List.append_assoc]
  refine ((parses_getBytes hh.1).at _).bind (((parses_get16' hh.2).at _).bind ?_)
  refine ParsesAt.bind_nil (parsesAt_addAll hk.readable (by simp [hh.1]) hl (key ks [] false hk (by rw [if_neg (by simp)]; exact h1))) ?_
  obtain ⟨t, r, d, f, ext⟩ := x
  simp only at hx hf
  subst hx hf
  simp only [List.nil_append, Bool.false_or]
  exact (parses_pure _).at _

/-! ## Protected entries -/

/-- A protected visual entry. -/
theorem c70_encVisual (hk : Family C ks) {s : Option (Kid α)} (hs : Family C s.toList)
    (hno : ∀ k ∈ ks, k.type ≠ fcc 's' 'i' 'n' 'f') (hyes : ∀ k ∈ s, k.type = fcc 's' 'i' 'n' 'f')
    {x : EncEntry Video α} (hx : x.ext = vals ks) (hy : x.sinf = s.map (·.val)) (hh : HeadFits x.reserved x.dref)
    (ht : GoodType x.type) (hf : x.fields.Fits) (hl : 86 + (wire ks).length + (wire s.toList).length < 4294967296) :
    Survives (encVisual C) x.type x (box x.type (encWire x.reserved x.dref x.fields.wire ks s)) :=
  enc_survives hk hs hno hyes rfl (by rw [Video.length hf]; rfl) x.fields.emits ((Video.parses hf).at _) hx hy hh ht hl

/-- A protected audio entry. -/
theorem c70_encAudio (hk : Family C ks) {s : Option (Kid α)} (hs : Family C s.toList)
    (hno : ∀ k ∈ ks, k.type ≠ fcc 's' 'i' 'n' 'f') (hyes : ∀ k ∈ s, k.type = fcc 's' 'i' 'n' 'f')
    {x : EncEntry Audio α} (hx : x.ext = vals ks) (hy : x.sinf = s.map (·.val)) (hh : HeadFits x.reserved x.dref)
    (ht : GoodType x.type) (hf : x.fields.Fits) (hl : 36 + (wire ks).length + (wire s.toList).length < 4294967296) :
    Survives (encAudio C) x.type x (box x.type (encWire x.reserved x.dref x.fields.wire ks s)) :=
  enc_survives hk hs hno hyes rfl (by rw [Audio.length hf]; rfl) x.fields.emits ((Audio.parses hf).at _) hx hy hh ht hl

/-- Boxes of an entry with protection in any order, with boxes that are dropped and several protection boxes: the last
protection box is kept, the others are kept in their order. -/
theorem c70_enc_reads (hk : Readable C ks) {type dref : Nat} {reserved : Bytes} {f : Video}
    (hh : HeadFits reserved dref) (ht : GoodType type) (hf : f.Fits) (hl : 86 + (wire ks).length < 4294967296) :
    Reads (encVisual C) type
      ⟨type, reserved, dref, f, vals ((stay ks).filter fun k => k.type ≠ fcc 's' 'i' 'n' 'f'),
        ((stay ks).filter fun k => k.type = fcc 's' 'i' 'n' 'f').getLast?.map (·.val)⟩
      (box type (headWire reserved dref ++ (f.wire ++ wire ks))) := by
  have e : 8 + (headWire reserved dref ++ (f.wire ++ wire ks)).length = 86 + (wire ks).length := by
    simp only [List.length_append, headWire_length hh, Video.length hf]; omega
  refine reads_of ?_ (by rw [e]; exact hl) ht
  rw [e]
  show ParsesAt (EncEntry.parse C Video.get _) _ _ _
  unfold EncEntry.parse headWire
  rw [List.append_assoc]
  refine ((parses_getBytes hh.1).at _).bind (((parses_get16' hh.2).at _).bind (((Video.parses hf).at _).bind ?_))
  refine ParsesAt.bind_nil (parsesAt_addAll hk ?_ hl (adds_enc [] none ks)) ?_
  · simp only [hh.1, be_length, Video.length hf]
  · rw [List.nil_append, Option.or_none]
    exact (parses_pure _).at _

/-- A second table of keys in an entry of boxed metadata is an error. -/
theorem c70_mebx_twice {k1 k2 : Kid α} (hk : Readable C (k1 :: k2 :: ks)) (h1 : k1.type = fcc 'k' 'e' 'y' 's')
    (h2 : k2.type = fcc 'k' 'e' 'y' 's') {type dref : Nat} {reserved : Bytes} (hh : HeadFits reserved dref)
    (ht : GoodType type) (hl : 16 + (wire (k1 :: k2 :: ks)).length < 4294967296) (rest : Bytes) :
    parseAtom (mebx C).parse (box type (headWire reserved dref ++ wire (k1 :: k2 :: ks)) ++ rest) = .err .badParam := by
  obtain ⟨⟨h81, hr1⟩, hk'⟩ := readable_cons hk
  obtain ⟨⟨h82, hr2⟩, hk''⟩ := readable_cons hk'
  have e : 8 + (headWire reserved dref ++ wire (k1 :: k2 :: ks)).length = 16 + (wire (k1 :: k2 :: ks)).length := by
    simp only [List.length_append, headWire_length hh]; omega
  refine parseAtom_err ?_ (by rw [e]; exact hl) ht
  rw [e]
  have nf : Tree.isFree (fcc 'k' 'e' 'y' 's') = false := by decide
  show (getBytes 6 >>= _) _ = _
  unfold headWire
  rw [List.append_assoc, List.append_assoc, P.bind_apply, (parses_getBytes hh.1).at 8]
  simp only
  rw [P.bind_apply, (parses_get16' hh.2).at _]
  simp only [hh.1, be_length, addAll]
  rw [P.bind_apply, P.bind_apply]
  simp only [addList, wire_cons, List.append_assoc, List.length_append] at hl ⊢
  obtain ⟨hd1, ht1, hz1, hp1⟩ := hr1 (k2.bytes ++ (wire ks ++ rest))
  obtain ⟨hd2, ht2, hz2, hp2⟩ := hr2 (wire ks ++ rest)
  obtain ⟨n, hn⟩ : ∃ n, k1.bytes.length + (k2.bytes.length + ((wire ks).length + rest.length)) + 1 = n + 1 + 1 :=
    ⟨k1.bytes.length + (k2.bytes.length + ((wire ks).length + rest.length)) - 1, by omega⟩
  rw [hn]
  simp only [addLoop]
  rw [if_pos (by omega), hp1]
  simp only [ht1, h1, nf, Bool.false_eq_true, if_false, mebxAdd, typeKeys, if_true, List.nil_append, hz1]
  rw [Nat.mod_eq_of_lt (by omega), if_pos (by omega), hp2]
  simp only [ht2, h2, nf, Bool.false_eq_true, if_false, if_true]

/-! ## Other readers -/

/-- The readers with `GETATOM_LIST`: boxes that are dropped among the others, and up to seven bytes after the last
box. -/
theorem c70_visual_reads (hk : Readable C ks) {type dref : Nat} {reserved pad : Bytes} {f : Video}
    (hh : HeadFits reserved dref) (ht : GoodType type) (hf : f.Fits) (hp : pad.length < 8)
    (hl : 86 + (wire ks).length + pad.length < 4294967296) :
    Reads (visual C) type ⟨type, reserved, dref, f, vals (stay ks)⟩
      (box type (headWire reserved dref ++ (f.wire ++ wire ks) ++ pad)) := by
  have e : 8 + (headWire reserved dref ++ (f.wire ++ wire ks) ++ pad).length = 86 + (wire ks).length + pad.length := by
    simp only [List.length_append, headWire_length hh, Video.length hf]; omega
  refine ⟨by rw [box_length]; omega, fun rest => ?_⟩
  rw [box_length]
  refine parseAtom_pad (entry_reads hk hh ((Video.parses hf).at _) hp ?_ ?_ rest) (by rw [e]; exact hl) ht
  · rw [e, Video.length hf]
  · rw [e]; exact hl

/-- The boxes of a generic entry come back as its data. -/
theorem c70_generic_flat (hk : Family C ks) {x : Entry Bytes α} (hx : x.ext = vals ks) (hh : HeadFits x.reserved x.dref)
    (ht : GoodType x.type) (hl : 16 + x.fields.length + (wire ks).length < 4294967296) :
    runW ((generic C).size x) ((generic C).ser x) =
        .ok (box x.type (headWire x.reserved x.dref ++ (x.fields ++ wire ks))) ∧
      Reads (generic C) x.type { x with fields := x.fields ++ wire ks, ext := [] }
        (box x.type (headWire x.reserved x.dref ++ (x.fields ++ wire ks))) := by
  have e : 8 + (headWire x.reserved x.dref ++ (x.fields ++ wire ks)).length =
      16 + (x.fields.length + (wire ks).length) := by
    simp only [List.length_append, headWire_length hh]; omega
  have hz : (generic C).size x = 16 + (x.fields.length + (wire ks).length) := by
    show listSize C _ x.ext = _
    rw [Nat.mod_eq_of_lt (show 8 + x.fields.length < 4294967296 by omega), Nat.mod_eq_of_lt (by omega), hx,
      listSize_kids hk (by omega)]
    omega
  constructor
  · rw [box_eq, e]
    refine EmitsFull.runW ?_ (by simp only [List.length_append, be_length, headWire_length hh]; omega) (by omega)
    show EmitsFull (x.serialize C ((generic C).size x) putBytes) _
    unfold Entry.serialize
    rw [if_neg (by have := ht.1; omega), hz, hx]
    refine (emits_serBase _ _).then ?_
    unfold headWire
    rw [List.append_assoc]
    exact (emits_bytes _).then ((emits_put16 _).then ((emits_bytes _).then (emits_serList hk).thenAssert))
  · refine reads_of ?_ (by rw [e]; omega) ht
    rw [e]
    have := generic_reads (C := C) (type := x.type) (f := x.fields ++ wire ks) hh (by simp only [List.length_append]; omega)
    simpa only [List.length_append] using this

/-- A generic entry with no boxes. The full claim, with boxes, is false: `c70_generic_flat`. -/
theorem c70_generic_partial {x : Entry Bytes α} (hx : x.ext = []) (hh : HeadFits x.reserved x.dref)
    (ht : GoodType x.type) (hl : 16 + x.fields.length < 4294967296) :
    Survives (generic C) x.type x (box x.type (headWire x.reserved x.dref ++ x.fields)) := by
  have h := c70_generic_flat (C := C) (ks := []) (fun k hk => nomatch hk) (x := x) hx hh ht hl
  have e : wire ([] : List (Kid α)) = [] := rfl
  rw [e, List.append_nil] at h
  obtain ⟨t, r, d, f, ext⟩ := x
  simp only at hx
  subst hx
  refine ⟨?_, h.1, h.2⟩
  have hz : (generic C).size ⟨t, r, d, f, []⟩ = 16 + f.length := by
    simp only at hl
    show (8 + (8 + f.length) % 4294967296) % 4294967296 = _
    omega
  rw [hz, box_length]
  simp only [List.length_append, headWire_length hh]
  omega

/-! ## QuickTime -/

/-- Version 1 of a QuickTime sound description is read when its first words, taken for a box, make a box that
does not fit the entry. -/
theorem c70_audio_qt_reads (hk : Readable C ks) {type dref : Nat} {reserved : Bytes} {f : Audio} {q : Qt}
    (hh : HeadFits reserved dref) (ht : GoodType type) (hf : f.Fits) (hv : f.reserved2[1]? = some 1) (hq : q.Fits)
    (hl : 52 + (wire ks).length < 4294967296) {rest r : Bytes} {c : α} {hd : Hdr}
    (hbox : parseAtom C.parse (q.wire ++ (wire ks ++ rest)) = .ok (c, hd, r))
    (hbig : 16 + (wire ks).length < hd.size) (hsmall : hd.size < 4294967260) :
    ∃ h, parseAtom (audio C).parse (box type (headWire reserved dref ++ (f.wire ++ (q.wire ++ wire ks))) ++ rest) =
      .ok (⟨type, reserved, dref, (f, q), vals (stay ks)⟩, h, rest) := by
  have e : 8 + (headWire reserved dref ++ (f.wire ++ (q.wire ++ wire ks))).length = 52 + (wire ks).length := by
    simp only [List.length_append, headWire_length hh, Audio.length hf, Qt.length]; omega
  have hw := readable_length hk
  have hb : (audio C).parse ⟨52 + (wire ks).length, type, [], 0, 8⟩
      ⟨headWire reserved dref ++ (f.wire ++ (q.wire ++ wire ks)) ++ ([] ++ rest), 8⟩ =
      .ok (⟨type, reserved, dref, (f, q), vals (stay ks)⟩, ⟨[] ++ rest, 52 + (wire ks).length⟩) := by
    rw [audio_head hh hf]
    simp only [List.append_assoc, List.nil_append]
    obtain ⟨n, hn⟩ : ∃ n, (q.wire ++ (wire ks ++ rest)).length + 1 = (n + 1 + ks.length) + 1 := by
      refine ⟨(q.wire ++ (wire ks ++ rest)).length - 1 - ks.length, ?_⟩
      simp only [List.length_append, Qt.length]
      omega
    rw [hn]
    simp only [audioLoop]
    rw [if_pos (by omega), hbox]
    simp only
    rw [Nat.mod_eq_of_lt (by omega), hv, if_pos (by simp; omega), (Qt.parses hq).at 36]
    simp only [Qt.length]
    rw [audioLoop_kids hk (by omega) (by omega) hl]
    simp
  have := parseAtom_pad (body := (audio C).parse) (pad := []) (r := rest) (v := ⟨type, reserved, dref, (f, q), vals (stay ks)⟩)
    (by rw [List.append_nil, e]; exact hb) (by rw [List.append_nil, e]; exact hl) ht
  rw [List.append_nil] at this
  obtain ⟨h, _, _, h3⟩ := this
  exact ⟨h, h3⟩

/-- They are lost when the entry is written: what is written is read back without them, though the version is still 1. -/
theorem c70_audio_qt_lost (hk : Family C ks) {x : Entry (Audio × Qt) α} (hx : x.ext = vals ks)
    (hh : HeadFits x.reserved x.dref) (ht : GoodType x.type) (hf : x.fields.1.Fits) (hq : x.fields.2 ≠ noQt)
    (hl : 36 + (wire ks).length < 4294967296) : ∃ bytes y,
    runW ((audio C).size x) ((audio C).ser x) = .ok bytes ∧ Reads (audio C) x.type y bytes ∧
      y.fields.2 = noQt ∧ y ≠ x ∧ y.fields.1 = x.fields.1 := by
  have h := c70_audio_partial hk (x := { x with fields := (x.fields.1, noQt) }) hx hh ht hf rfl hl
  refine ⟨_, _, h.write, h.read, rfl, ?_, rfl⟩
  intro he
  rw [← he] at hq
  exact hq rfl

/-- Any bytes in an audio entry that cannot be parsed as a box: a NULL pointer is used. -/
theorem c70_audio_broken (hk : Readable C ks) {type dref : Nat} {reserved bad rest : Bytes} {f : Audio} {e : Err}
    (hh : HeadFits reserved dref) (ht : GoodType type) (hf : f.Fits) (hb : bad ≠ [])
    (hbox : parseAtom C.parse (bad ++ rest) = .err e) (hl : 36 + (wire ks).length + bad.length < 4294967296) :
    parseAtom (audio C).parse (box type (headWire reserved dref ++ (f.wire ++ (wire ks ++ bad))) ++ rest) = .ub := by
  have el : 8 + (headWire reserved dref ++ (f.wire ++ (wire ks ++ bad))).length =
      36 + (wire ks).length + bad.length := by
    simp only [List.length_append, headWire_length hh, Audio.length hf]; omega
  have hw := readable_length hk
  have hb0 : 0 < bad.length := List.length_pos_iff.2 hb
  refine parseAtom_ub ?_ (by rw [el]; exact hl) ht
  rw [el, audio_head hh hf]
  simp only [List.append_assoc]
  obtain ⟨n, hn⟩ : ∃ n, (wire ks ++ (bad ++ rest)).length + 1 = (n + 1) + ks.length := by
    refine ⟨(wire ks ++ (bad ++ rest)).length - ks.length, ?_⟩
    simp only [List.length_append]
    omega
  rw [hn, audioLoop_step hk (by omega) hl]
  simp only [audioLoop]
  rw [if_pos (by omega), hbox]

/-- In particular up to three bytes at the end of the file; a visual entry may have them (`c70_visual_reads`). -/
theorem c70_audio_padding (hk : Readable C ks) {type dref : Nat} {reserved pad : Bytes} {f : Audio}
    (hh : HeadFits reserved dref) (ht : GoodType type) (hf : f.Fits) (h0 : pad ≠ []) (h3 : pad.length < 4)
    (hl : 36 + (wire ks).length + pad.length < 4294967296) :
    parseAtom (audio C).parse (box type (headWire reserved dref ++ (f.wire ++ (wire ks ++ pad)))) = .ub := by
  have hbox : parseAtom C.parse (pad ++ []) = .err .ioErr := by
    match pad with
    | [] => exact absurd rfl h0
    | [_] | [_, _] | [_, _, _] => rfl
    | _ :: _ :: _ :: _ :: _ => simp at h3; omega
  have := c70_audio_broken (rest := []) hk hh ht hf h0 hbox hl
  rwa [List.append_nil] at this

/-- In particular version 1 of a QuickTime sound description with two to seven samples per packet (MACE has six). -/
theorem c70_audio_mace {type dref : Nat} {reserved more : Bytes} {f : Audio} {q : Qt}
    (hh : HeadFits reserved dref) (ht : GoodType type) (hf : f.Fits) (h2 : 2 ≤ q.samplesPerPacket)
    (h7 : q.samplesPerPacket ≤ 7) (hl : 52 + more.length < 4294967296) (rest : Bytes) :
    parseAtom (audio C).parse (box type (headWire reserved dref ++ (f.wire ++ (q.wire ++ more))) ++ rest) = .ub := by
  obtain ⟨e, hhd⟩ : ∃ e, parseHeader ((q.wire ++ more) ++ rest) = .err e := by
    unfold Qt.wire
    simp only [List.append_assoc]
    refine parseHeader_tiny h2 h7 ?_
    simp only [List.length_append, be_length]
    omega
  have hbox : parseAtom C.parse ((q.wire ++ more) ++ rest) = .err e := by
    unfold parseAtom
    rw [hhd]
  have hb : q.wire ++ more ≠ [] := by
    intro h
    have := congrArg List.length h
    simp [Qt.length] at this
  have := c70_audio_broken (ks := []) (C := C) (rest := rest) (by intro k hk; cases hk) hh ht hf hb hbox
    (by simp only [List.length_append, Qt.length, wire, List.flatMap_nil, List.length_nil] at hl ⊢; omega)
  simpa [wire] using this

/-! ## Metadata with strings -/

/-- The entries of timed text metadata: two strings of at most 1023 bytes. No string is written as an empty one, and an
empty one is read. The claim for strings of any length is false: `c70_text_long`. -/
theorem c70_text_partial (hk : Family C ks) {x : Entry TextFields α} (hx : x.ext = vals ks)
    (hh : HeadFits x.reserved x.dref) (ht : GoodType x.type) {a b : Option Bytes} (ha : Short 1023 a) (hb : Short 1023 b)
    (hf : x.fields = ⟨inMemory a, inMemory b⟩) (hl : 4096 + (wire ks).length < 4294967296) :
    runW ((textMeta C).size x) ((textMeta C).ser x) =
        .ok (box x.type (headWire x.reserved x.dref ++ ((strWire a ++ strWire b) ++ wire ks))) ∧
      (textMeta C).size x =
        (box x.type (headWire x.reserved x.dref ++ ((strWire a ++ strWire b) ++ wire ks))).length ∧
      Reads (textMeta C) x.type { x with fields := ⟨some (strWire a), some (strWire b)⟩ }
        (box x.type (headWire x.reserved x.dref ++ ((strWire a ++ strWire b) ++ wire ks))) := by
  have ea := strWire_length a
  have eb := strWire_length b
  have la := ha.2
  have lb := hb.2
  have e : (strWire a ++ strWire b).length = (a.getD []).length + (b.getD []).length + 2 := by
    simp only [List.length_append]; omega
  have hser : (textMeta C).ser x = x.serialize C ((textMeta C).size x)
    fun f => putField f.contentEncoding ;; putField f.mimeFormat := rfl
  refine entry_rewrites hk hx hh ht (by rw [e]; omega) ?_ hser ?_ (f := ⟨some (strWire a), some (strWire b)⟩)
    (get := fun h => do
      let a ← readField h
      let b ← readField h
      pure ⟨a, b⟩) rfl ?_
  · show listSize C (fieldSize (fieldSize 18 x.fields.contentEncoding) x.fields.mimeFormat) x.ext = _
    rw [hf, fieldSize_short ha (by omega), fieldSize_short hb (by omega), e]
    congr 1; omega
  · rw [hf]
    exact (emits_putField ha (by omega)).seq (emits_putField hb (by omega))
  · refine ParsesAt.bind (parsesAt_short ha (by simp only [e]; omega)) ?_
    refine ParsesAt.bind_nil (parsesAt_short hb (by simp only [e, ea]; omega)) ?_
    exact (parses_pure _).at _

/-- The entries of timed XML metadata: three strings, as above. -/
theorem c70_xml_partial (hk : Family C ks) {x : Entry XmlFields α} (hx : x.ext = vals ks)
    (hh : HeadFits x.reserved x.dref) (ht : GoodType x.type) {a b c : Option Bytes} (ha : Short 1023 a)
    (hb : Short 1023 b) (hc : Short 1023 c) (hf : x.fields = ⟨inMemory a, inMemory b, inMemory c⟩)
    (hl : 4096 + (wire ks).length < 4294967296) :
    runW ((xmlMeta C).size x) ((xmlMeta C).ser x) =
        .ok (box x.type (headWire x.reserved x.dref ++ ((strWire a ++ (strWire b ++ strWire c)) ++ wire ks))) ∧
      (xmlMeta C).size x =
        (box x.type (headWire x.reserved x.dref ++ ((strWire a ++ (strWire b ++ strWire c)) ++ wire ks))).length ∧
      Reads (xmlMeta C) x.type { x with fields := ⟨some (strWire a), some (strWire b), some (strWire c)⟩ }
        (box x.type (headWire x.reserved x.dref ++ ((strWire a ++ (strWire b ++ strWire c)) ++ wire ks))) := by
  have ea := strWire_length a
  have eb := strWire_length b
  have ec := strWire_length c
  have la := ha.2
  have lb := hb.2
  have lc := hc.2
  have e : (strWire a ++ (strWire b ++ strWire c)).length =
      (a.getD []).length + (b.getD []).length + (c.getD []).length + 3 := by
    simp only [List.length_append]; omega
  have hser : (xmlMeta C).ser x = x.serialize C ((xmlMeta C).size x)
    fun f => putField f.contentEncoding ;; putField f.xmlNamespace ;; putField f.schemaLocation := rfl
  refine entry_rewrites hk hx hh ht (by rw [e]; omega) ?_ hser ?_
    (f := ⟨some (strWire a), some (strWire b), some (strWire c)⟩)
    (get := fun h => do
      let a ← readField h
      let b ← readField h
      let r ← P.bytesRead
      if h.size > r then
        let c ← readString
        pure ⟨a, b, some c⟩
      else pure ⟨a, none, none⟩) rfl ?_
  · show listSize C (fieldSize (fieldSize (fieldSize 19 x.fields.contentEncoding) x.fields.xmlNamespace)
      x.fields.schemaLocation) x.ext = _
    rw [hf, fieldSize_short ha (by omega), fieldSize_short hb (by omega), fieldSize_short hc (by omega), e]
    congr 1; omega
  · rw [hf]
    exact (emits_putField ha (by omega)).seq ((emits_putField hb (by omega)).seq (emits_putField hc (by omega)))
  · refine ParsesAt.bind (parsesAt_short ha (by simp only [e]; omega)) ?_
    refine ParsesAt.bind (parsesAt_short hb (by simp only [e, ea]; omega)) ?_
    refine parsesAt_bytesRead ?_
    rw [if_pos (by simp only [e, ea, eb]; omega)]
    refine ParsesAt.bind_nil ((parses_readString hc.1 hc.2).at _) ?_
    exact (parses_pure _).at _

/-- A box that ends after the namespace, as written by others: the namespace is forgotten. -/
theorem c70_xml_namespace {type dref : Nat} {reserved a b : Bytes} (hh : HeadFits reserved dref) (ht : GoodType type)
    (ha : Short 1023 (some a)) (hb : Short 1023 (some b)) :
    Reads (xmlMeta C) type ⟨type, reserved, dref, ⟨some (a ++ [0]), none, none⟩, []⟩
      (box type (headWire reserved dref ++ ((a ++ [0]) ++ (b ++ [0])))) := by
  have la := ha.2
  have lb := hb.2
  simp only [Option.getD_some] at la lb
  have e : ((a ++ [0]) ++ (b ++ [0])).length = a.length + b.length + 2 := by
    simp only [List.length_append, List.length_singleton]; omega
  have el : 8 + (headWire reserved dref ++ ((a ++ [0]) ++ (b ++ [0]))).length =
      16 + ((a ++ [0]) ++ (b ++ [0])).length := by
    rw [List.length_append, headWire_length hh]; omega
  refine reads_of ?_ (by rw [el, e]; omega) ht
  rw [el]
  have hk : Family C ([] : List (Kid α)) := fun k hk => nomatch hk
  have h := entry_parse (C := C) (ks := []) (w := (a ++ [0]) ++ (b ++ [0])) hk
    (x := ⟨type, reserved, dref, (⟨some (a ++ [0]), none, none⟩ : XmlFields), []⟩)
    (get := (do
      let a' ← readField ⟨16 + ((a ++ [0]) ++ (b ++ [0])).length, type, [], 0, 8⟩
      let b' ← readField ⟨16 + ((a ++ [0]) ++ (b ++ [0])).length, type, [], 0, 8⟩
      let r ← P.bytesRead
      if 16 + ((a ++ [0]) ++ (b ++ [0])).length > r then
        let c ← readString
        pure ⟨a', b', some c⟩
      else pure ⟨a', none, none⟩ : P XmlFields)) rfl hh ?_ (by
        show _ + 0 < _
        rw [e]; omega)
  · have e0 : wire ([] : List (Kid α)) = [] := rfl
    rw [e0] at h
    simp only [List.append_nil, List.length_nil, Nat.add_zero] at h
    exact h
  · refine ParsesAt.bind (parsesAt_readField ha.1 ha.2 (by simp only [e]; omega)) ?_
    refine ParsesAt.bind_nil (parsesAt_readField hb.1 hb.2 (by
      simp only [List.length_append, List.length_singleton]; omega)) ?_
    refine parsesAt_bytesRead ?_
    rw [if_neg (by simp only [List.length_append, List.length_singleton]; omega)]
    exact (parses_pure _).at _

/-- A string of 1024 bytes or more can be written, and overflows the buffer of the reader. -/
theorem c70_text_long (hk : Family C ks) {x : Entry TextFields α} (hx : x.ext = vals ks)
    (hh : HeadFits x.reserved x.dref) (ht : GoodType x.type) {a b : Bytes} {n : Nat} (ha : Short n (some a))
    (hb : Short n (some b)) (hf : x.fields = ⟨some (a ++ [0]), some (b ++ [0])⟩)
    (hl : 18 + a.length + b.length + (wire ks).length < 4294967296) (hlong : 1024 ≤ a.length) (rest : Bytes) :
    ∃ bytes, runW ((textMeta C).size x) ((textMeta C).ser x) = .ok bytes ∧
      parseAtom (textMeta C).parse (bytes ++ rest) = .ub := by
  have e : ((a ++ [0]) ++ (b ++ [0])).length = a.length + b.length + 2 := by
    simp only [List.length_append, List.length_singleton]; omega
  have el : 8 + (headWire x.reserved x.dref ++ (((a ++ [0]) ++ (b ++ [0])) ++ wire ks)).length =
      18 + a.length + b.length + (wire ks).length := by
    rw [List.length_append, headWire_length hh, List.length_append, e]; omega
  have hz : (textMeta C).size x = 18 + a.length + b.length + (wire ks).length := by
    show listSize C (fieldSize (fieldSize 18 x.fields.contentEncoding) x.fields.mimeFormat) x.ext = _
    have h1 : fieldSize 18 (some (a ++ [0])) = _ := fieldSize_short ha (by simp only [Option.getD_some]; omega)
    have h2 : fieldSize (18 + a.length) (some (b ++ [0])) = _ :=
      fieldSize_short hb (by simp only [Option.getD_some]; omega)
    rw [hf, h1]
    simp only [Option.getD_some]
    rw [h2, hx]
    simp only [Option.getD_some]
    rw [listSize_kids hk hl]
  refine ⟨box x.type (headWire x.reserved x.dref ++ (((a ++ [0]) ++ (b ++ [0])) ++ wire ks)), ?_, ?_⟩
  · rw [box_eq, el]
    refine EmitsFull.runW ?_ (by
      simp only [List.length_append, be_length, headWire_length hh, List.length_singleton]; omega) (by omega)
    have hser : (textMeta C).ser x = x.serialize C ((textMeta C).size x)
        (fun f => putField f.contentEncoding ;; putField f.mimeFormat) := rfl
    rw [hser]
    unfold Entry.serialize
    rw [if_neg (by have := ht.1; omega), hz, hx, hf]
    refine (emits_serBase _ _).then ?_
    unfold headWire
    rw [List.append_assoc]
    refine (emits_bytes _).then ((emits_put16 _).then (Emits.then ?_ (emits_serList hk).thenAssert))
    exact (emits_putField ha (by simp only [Option.getD_some]; omega)).seq
      (emits_putField hb (by simp only [Option.getD_some]; omega))
  · refine parseAtom_ub ?_ (by rw [el]; exact hl) ht
    rw [el]
    show (getBytes 6 >>= _) _ = _
    unfold headWire
    simp only [List.append_assoc]
    rw [P.bind_apply, (parses_getBytes hh.1).at 8]
    simp only
    rw [P.bind_apply, (parses_get16' hh.2).at _]
    simp only [hh.1, be_length]
    rw [P.bind_apply, P.bind_apply]
    have : readField ⟨18 + a.length + b.length + (wire ks).length, x.type, [], 0, 8⟩
        ⟨a ++ ([0] ++ (b ++ ([0] ++ (wire ks ++ rest)))), 8 + 6 + 2⟩ = .ub := by
      unfold readField
      rw [P.bind_apply]
      show (if _ then _ else _ : P (Option Bytes)) _ = _
      rw [if_pos (show 18 + a.length + b.length + (wire ks).length > 8 + 6 + 2 by omega), P.bind_apply]
      unfold readString
      simp only [List.singleton_append]
      rw [splitNul_text (s := a) ha.1]
      simp only
      rw [if_pos (by simp; omega)]
    rw [this]

/-- A string with no NUL in the box: the reader goes on in the bytes that follow the box. -/
theorem c70_text_open {type dref : Nat} {reserved a t : Bytes} (hh : HeadFits reserved dref) (ht : GoodType type)
    (ha : Short 1023 (some (a ++ t))) (h0 : a ≠ []) (r : Bytes) :
    ∃ h, parseAtom (textMeta C).parse (box type (headWire reserved dref ++ a) ++ (t ++ 0 :: r)) =
      .ok (⟨type, reserved, dref, ⟨some (a ++ t ++ [0]), none⟩, []⟩, h, r) := by
  have la := ha.2
  simp only [Option.getD_some, List.length_append] at la
  have hpos : 0 < a.length := List.length_pos_iff.2 h0
  have el : 8 + (headWire reserved dref ++ a).length = 16 + a.length := by
    rw [List.length_append, headWire_length hh]; omega
  refine ⟨⟨16 + a.length, type, [], 0, 8⟩, ?_⟩
  rw [box_eq, el]
  unfold parseAtom
  rw [List.append_assoc, parseHeader_small (by omega) (by omega) ht.2.1 ht.uuid _ (by
    simp only [List.length_append, headWire_length hh]; omega)]
  have hb : (textMeta C).parse ⟨16 + a.length, type, [], 0, 8⟩ ⟨headWire reserved dref ++ a ++ (t ++ 0 :: r), 8⟩ =
      .ok (⟨type, reserved, dref, ⟨some (a ++ t ++ [0]), none⟩, []⟩, ⟨r, 16 + (a.length + t.length + 1)⟩) := by
    show (getBytes 6 >>= _) _ = _
    unfold headWire
    simp only [List.append_assoc]
    rw [P.bind_apply, (parses_getBytes hh.1).at 8]
    simp only
    rw [P.bind_apply, (parses_get16' hh.2).at _]
    simp only [hh.1, be_length]
    rw [P.bind_apply, P.bind_apply]
    have e1 : a ++ (t ++ 0 :: r) = (a ++ t ++ [0]) ++ r := by simp
    rw [e1, parsesAt_readField (s := a ++ t) (k := 8 + 6 + 2) ha.1 ha.2 (by simp only; omega)]
    simp only
    rw [P.bind_apply]
    have e2 : ∀ m, 16 + a.length ≤ m → readField ⟨16 + a.length, type, [], 0, 8⟩ ⟨r, m⟩ = .ok (none, ⟨r, m⟩) := by
      intro m hm
      unfold readField
      rw [P.bind_apply]
      show (if _ then _ else _ : P (Option Bytes)) _ = _
      rw [if_neg (show ¬ 16 + a.length > m by omega)]
      rfl
    rw [e2 _ (by simp only [Option.getD_some, List.length_append, List.length_singleton]; omega)]
    simp only [Option.getD_some, List.length_append, List.length_singleton]
    rw [show ∀ (v : TextFields) (s : PS), (pure v : P TextFields) s = .ok (v, s) from fun _ _ => rfl]
    simp only
    rw [P.bind_apply]
    have e3 : getList C (16 + a.length) ⟨r, 8 + 6 + 2 + (a.length + t.length + 1)⟩ =
        .ok ([], ⟨r, 8 + 6 + 2 + (a.length + t.length + 1)⟩) := by
      unfold getList
      simp only [listLoop]
      rw [if_neg (by omega)]
    rw [e3]
    simp
    rfl
  simp only [hb]
  simp only [Res.ok.injEq, Prod.mk.injEq, true_and]
  rw [if_neg (by omega)]
  have : 16 + a.length - ((be 4 (16 + a.length) ++ be 4 type ++ (headWire reserved dref ++ a ++ (t ++ 0 :: r))).length - r.length) = 0 := by
    simp only [List.length_append, be_length, headWire_length hh, List.length_cons]
    omega
  rw [this, List.drop_zero]

/-! ## Any entry, and the sample description box -/

private theorem any_of {β : Type} {K : Class β} {t : Nat} {x : β} {b : Bytes} {f : β → Any α} (h : Survives K t x b)
    (hs : anySize C (f x) = K.size x) (hw : anySer C (f x) = K.ser x)
    (hp : ∀ hd : Hdr, hd.type = t → anyParse C hd = P.as f (K.parse hd)) : Survives (any C) t (f x) b := by
  refine ⟨hs.trans h.size, ?_, h.read.1, fun rest => ?_⟩
  · show runW (anySize C (f x)) (anySer C (f x)) = _
    rw [hs, hw]
    exact h.write
  · obtain ⟨hd, h1, h2, h3⟩ := h.read.2 rest
    exact ⟨hd, h1, h2, parseAtom_as h3 (hp hd h1)⟩

private theorem anyParse_generic {t : Nat} (ht : t ∉ visualTypes ++ audioTypes ++ otherTypes) (hd : Hdr)
    (he : hd.type = t) : anyParse C hd = P.as .generic ((generic C).parse hd) := by
  simp only [visualTypes, audioTypes, otherTypes, List.cons_append, List.nil_append, List.mem_cons, List.not_mem_nil,
    or_false, not_or] at ht
  obtain ⟨h1, h2, h3, h4, h5, h6, h7, h8, h9, h10, h11, h12, h13, h14, h15, h16, h17, h18⟩ := ht
  unfold anyParse
  rw [he, if_neg h12, if_neg (by simp only [not_or]; exact ⟨h1, h7, h2, h3, h5, h4, h6⟩),
    if_neg (by simp only [not_or]; exact ⟨h8, h9, h10, h11⟩), if_neg h14, if_neg h13, if_neg h16, if_neg h17, if_neg h15,
    if_neg h18]

/-- An entry that survives in its class survives when the reader chooses the class by the type. -/
theorem c70_any {t : Nat} {x : Any α} {b : Bytes} (h : Listed C t x b) : Survives (any C) t x b := by
  cases h with
  | plain h => exact any_of h rfl rfl fun hd he => by unfold anyParse; rw [he, if_pos rfl]
  | visual ht h =>
    refine any_of h rfl rfl fun hd he => ?_
    unfold anyParse
    rw [he]
    simp only [visualTypes, List.mem_cons, List.not_mem_nil, or_false] at ht
    rcases ht with rfl | rfl | rfl | rfl | rfl | rfl | rfl <;> rw [if_neg (by decide), if_pos (by decide)]
  | audio ht h =>
    refine any_of h rfl rfl fun hd he => ?_
    unfold anyParse
    rw [he]
    simp only [audioTypes, List.mem_cons, List.not_mem_nil, or_false] at ht
    rcases ht with rfl | rfl | rfl | rfl <;> rw [if_neg (by decide), if_neg (by decide), if_pos (by decide)]
  | encVisual h =>
    refine any_of h rfl rfl fun hd he => ?_
    unfold anyParse
    rw [he, if_neg (by decide), if_neg (by decide), if_neg (by decide), if_neg (by decide), if_pos rfl]
  | encAudio h =>
    refine any_of h rfl rfl fun hd he => ?_
    unfold anyParse
    rw [he, if_neg (by decide), if_neg (by decide), if_neg (by decide), if_pos rfl]
  | restricted h =>
    refine any_of h rfl rfl fun hd he => ?_
    unfold anyParse
    rw [he, if_neg (by decide), if_neg (by decide), if_neg (by decide), if_neg (by decide), if_neg (by decide),
      if_neg (by decide), if_neg (by decide), if_pos rfl]
  | xmlMeta h =>
    refine any_of h rfl rfl fun hd he => ?_
    unfold anyParse
    rw [he, if_neg (by decide), if_neg (by decide), if_neg (by decide), if_neg (by decide), if_neg (by decide), if_pos rfl]
  | textMeta h =>
    refine any_of h rfl rfl fun hd he => ?_
    unfold anyParse
    rw [he, if_neg (by decide), if_neg (by decide), if_neg (by decide), if_neg (by decide), if_neg (by decide),
      if_neg (by decide), if_pos rfl]
  | mebx h =>
    refine any_of h rfl rfl fun hd he => ?_
    unfold anyParse
    rw [he, if_neg (by decide), if_neg (by decide), if_neg (by decide), if_neg (by decide), if_neg (by decide),
      if_neg (by decide), if_neg (by decide), if_neg (by decide), if_pos rfl]
  | generic ht h => exact any_of h rfl rfl (anyParse_generic ht)

/-- A visual entry of a type that the reader does not list, `hvc2` for one, is written, and comes back as a generic
entry: its fields and boxes are bytes. -/
theorem c70_unlisted (hk : Family C ks) {x : Entry Video α} (hx : x.ext = vals ks) (hh : HeadFits x.reserved x.dref)
    (ht : GoodType x.type) (hf : x.fields.Fits) (hl : 86 + (wire ks).length < 4294967296)
    (hu : x.type ∉ visualTypes ++ audioTypes ++ otherTypes) : ∃ bytes,
    runW ((any C).size (.visual x)) ((any C).ser (.visual x)) = .ok bytes ∧
      Reads (any C) x.type (.generic ⟨x.type, x.reserved, x.dref, x.fields.wire ++ wire ks, []⟩) bytes := by
  have h := c70_visual hk hx hh ht hf hl
  have hl' : 16 + (x.fields.wire ++ wire ks).length < 4294967296 := by
    rw [List.length_append, Video.length hf]; omega
  have g := c70_any (.generic hu (c70_generic_partial (C := C)
    (x := ⟨x.type, x.reserved, x.dref, x.fields.wire ++ wire ks, []⟩) rfl hh ht hl'))
  exact ⟨_, h.write, g.read⟩

private theorem parses_of_reads {K : Class α} {k : Kid α} (h : Reads K k.type k.val k.bytes) :
    Parses (getAtom K.parse) k.bytes k.val := by
  intro r n
  obtain ⟨hd, _, h2, h3⟩ := h.2 r
  unfold getAtom
  simp only [h3, h2]

private theorem stsd_body {h : Hdr} (hk : Readable C ks) {version flags : Nat} (hv : version < 256)
    (hf : flags < 16777216) (hn : ks.length < 4294967296) (hs : h.size = 16 + (wire ks).length) :
    ParsesAt ((stsd C).parse h) 8 ((be 1 version ++ be 3 flags) ++ (be 4 ks.length ++ wire ks))
      ⟨version, flags, vals ks⟩ := by
  refine ((parses_versionFlags hv hf).at _).bind (((parses_get32' hn).at _).bind ?_)
  refine ParsesAt.bind_nil
    ((parses_repeat_map ks (·.bytes) (·.val) (fun k hm => parses_of_reads (hk k hm)) rfl).at _) ?_
  refine parsesAt_bytesRead ?_
  have e : (ks.flatMap (·.bytes)).length = (wire ks).length := rfl
  rw [if_neg (by simp only [List.length_append, be_length, e]; omega)]
  exact (parses_pure _).at _

/-- The box: any entries that survive by themselves, with their number before them. -/
theorem c70_stsd (hk : Family C ks) {x : Stsd α} (hx : x.entries = vals ks) (hv : x.version < 256)
    (hf : x.flags < 16777216) (hl : 16 + (wire ks).length < 4294967296) :
    Survives (stsd C) (fcc 's' 't' 's' 'd') x
      (fullBox (fcc 's' 't' 's' 'd') x.version x.flags (be 4 ks.length ++ wire ks)) := by
  have hw := readable_length hk.readable
  have e : 8 + ((be 1 x.version ++ be 3 x.flags) ++ (be 4 ks.length ++ wire ks)).length = 16 + (wire ks).length := by
    simp only [List.length_append, be_length]; omega
  have hz : (stsd C).size x = 16 + (wire ks).length := by
    show listSize C 16 x.entries = _
    rw [hx, listSize_kids hk hl]
  refine survives_of ?_ ?_ ?_ (by rw [e]; exact hl) (by unfold GoodType; decide)
  · rw [hz, e]
  · rw [e, ← hz]
    show EmitsFull (serFull ((stsd C).size x) _ _ _ ;; put32 x.entries.length ;; serList C x.entries ;; W.assertFull) _
    have hlen : x.entries.length = ks.length := by rw [hx]; simp [vals]
    rw [hlen, hx, ← List.append_assoc]
    exact (emits_serFull _ _ _ _).then ((emits_put32 _).then (emits_serList hk).thenAssert)
  · rw [e]
    obtain ⟨v, f, es⟩ := x
    simp only at hx
    subst hx
    exact stsd_body hk.readable hv hf (by omega) rfl

/-- In particular the box with entries of the listed classes. -/
theorem c70_stsd_any {es : List (Kid (Any α))} (hk : ∀ k ∈ es, Listed C k.type k.val k.bytes ∧ ¬ Dropped k.type)
    {x : Stsd (Any α)} (hx : x.entries = vals es) (hv : x.version < 256) (hf : x.flags < 16777216)
    (hl : 16 + (wire es).length < 4294967296) :
    Survives (stsd (any C)) (fcc 's' 't' 's' 'd') x
      (fullBox (fcc 's' 't' 's' 'd') x.version x.flags (be 4 es.length ++ wire es)) :=
  c70_stsd (fun k hm => ⟨c70_any (hk k hm).1, (hk k hm).2⟩) hx hv hf hl

/-- A number of entries smaller than what the box holds is an error. -/
theorem c70_stsd_count {k : Kid α} {more : List (Kid α)} (hk : Readable C (ks ++ k :: more)) {version flags : Nat}
    (hv : version < 256) (hf : flags < 16777216) (hl : 16 + (wire (ks ++ k :: more)).length < 4294967296)
    (rest : Bytes) :
    parseAtom (stsd C).parse
      (fullBox (fcc 's' 't' 's' 'd') version flags (be 4 ks.length ++ wire (ks ++ k :: more)) ++ rest) = .err .badData := by
  have e0 : wire (ks ++ k :: more) = wire ks ++ (k.bytes ++ wire more) := by simp [wire]
  have hk8 := (hk k (by simp)).1
  have hk' : Readable C ks := fun j hj => hk j (by simp [hj])
  have hw := readable_length hk'
  rw [e0] at hl ⊢
  simp only [List.length_append] at hl
  have e : 8 + ((be 1 version ++ be 3 flags) ++ (be 4 ks.length ++ (wire ks ++ (k.bytes ++ wire more)))).length =
      16 + (wire ks).length + k.bytes.length + (wire more).length := by
    simp only [List.length_append, be_length]; omega
  refine parseAtom_err ?_ (by rw [e]; omega) (by unfold GoodType; decide)
  rw [e]
  show (getVersionFlags >>= _) _ = _
  rw [List.append_assoc, P.bind_apply, (parses_versionFlags hv hf).at 8]
  simp only [List.append_assoc]
  rw [P.bind_apply, (parses_get32' (show ks.length < 4294967296 by omega)).at _]
  simp only
  rw [P.bind_apply, show wire ks = ks.flatMap (·.bytes) from rfl,
    (parses_repeat_map ks (·.bytes) (·.val) (fun k hm => parses_of_reads (hk' k hm)) rfl).at _]
  simp only
  rw [P.bind_apply]
  show (if _ then _ else _ : P (Stsd α)) _ = _
  rw [if_pos (by simp only [List.length_append, be_length]; omega)]
  rfl

/-- Entries are numbered from one. -/
theorem c70_getEntry (x : Stsd α) (n : Nat) :
    x.getEntry n = match n with
      | 0 => .err .badParam
      | i + 1 => match x.entries[i]? with
        | some e => .ok e
        | none => .err .badParam := by
  unfold Stsd.getEntry
  cases n with
  | zero => simp
  | succ i =>
    by_cases h : i < x.entries.length
    · rw [if_neg (by omega)]
      simp only [Nat.add_sub_cancel]
      cases x.entries[i]? <;> rfl
    · rw [if_pos (by omega)]
      simp [List.getElem?_eq_none (show x.entries.length ≤ i by omega)]

/-! ## Examples

The boxes are of classes that the library does not know, kept as bytes: `leaf` in Model/Tree.lean. -/

/-- UnknownAtom.c. -/
def leafs : Class Tree.Tree := ⟨Tree.body 1, Tree.size, Tree.ser⟩

theorem leaf_body {type : Nat} {data : Bytes} (hg : Tree.groups type = none) (hl : 8 + data.length < 4294967296) :
    ParsesAt (leafs.parse ⟨8 + data.length, type, [], 0, 8⟩) 8 data (.leaf type [] data) := by
  show ParsesAt (Tree.body 1 _) _ _ _
  rw [Tree.body]
  simp only [hg]
  refine parsesAt_bytesRead ?_
  have e : (8 + data.length + (4294967296 - 8)) % 4294967296 = data.length := by omega
  rw [e]
  exact Parses.at (Parses.bind_nil (f := fun d => pure (Tree.Tree.leaf type [] d)) (parses_getBytes rfl) (parses_pure _)) _

theorem leaf_survives {type : Nat} {data : Bytes} (ht : GoodType type) (hg : Tree.groups type = none)
    (hl : 8 + data.length < 4294967296) : Survives leafs type (.leaf type [] data) (box type data) := by
  have hu : type ≠ typeUuid := ht.uuid
  have hz : leafs.size (.leaf type [] data) = 8 + data.length := by
    show Tree.size (.leaf type [] data) = _
    rw [Tree.size, if_neg hu, Nat.mod_eq_of_lt hl]
  refine survives_of hz ?_ (leaf_body hg hl) hl ht
  rw [← hz]
  show EmitsFull (Tree.ser (.leaf type [] data)) _
  rw [Tree.ser, if_neg (by have := ht.1; omega), if_neg hu]
  exact (emits_serBase _ _).then ((emits_skip.seq (emits_bytes _)).thenAssert)

theorem leaf_parse {type : Nat} {data : Bytes} (ht : GoodType type) (hg : Tree.groups type = none)
    (hl : 8 + data.length < 4294967296) (r : Bytes) :
    parseAtom leafs.parse (box type data ++ r) = .ok (.leaf type [] data, ⟨8 + data.length, type, [], 0, 8⟩, r) := by
  rw [box_eq]
  exact parseAtom_small (leaf_body hg hl) rfl hl ht.2.1 ht.uuid r

/-- A box of five bytes. -/
def esds : Kid Tree.Tree := ⟨fcc 'e' 's' 'd' 's', .leaf (fcc 'e' 's' 'd' 's') [] [1, 2, 3, 4, 5], box (fcc 'e' 's' 'd' 's') [1, 2, 3, 4, 5]⟩
/-- A box of one byte. -/
def btrt : Kid Tree.Tree := ⟨fcc 'b' 't' 'r' 't', .leaf (fcc 'b' 't' 'r' 't') [] [9], box (fcc 'b' 't' 'r' 't') [9]⟩
def sinf : Kid Tree.Tree := ⟨fcc 's' 'i' 'n' 'f', .leaf (fcc 's' 'i' 'n' 'f') [] [7, 7], box (fcc 's' 'i' 'n' 'f') [7, 7]⟩
def keys : Kid Tree.Tree := ⟨fcc 'k' 'e' 'y' 's', .leaf (fcc 'k' 'e' 'y' 's') [] [], box (fcc 'k' 'e' 'y' 's') []⟩

theorem family : Family leafs [esds, btrt] := by
  intro k hk
  simp only [List.mem_cons, List.not_mem_nil, or_false] at hk
  rcases hk with rfl | rfl
  · exact ⟨leaf_survives (by unfold GoodType; decide) (by decide) (by decide), by decide⟩
  · exact ⟨leaf_survives (by unfold GoodType; decide) (by decide) (by decide), by decide⟩

theorem family_sinf : Family leafs [sinf] := by
  intro k hk
  simp only [List.mem_cons, List.not_mem_nil, or_false] at hk
  subst hk
  exact ⟨leaf_survives (by unfold GoodType; decide) (by decide) (by decide), by decide⟩

theorem family_keys : Family leafs [keys, btrt] := by
  intro k hk
  simp only [List.mem_cons, List.not_mem_nil, or_false] at hk
  rcases hk with rfl | rfl
  · exact ⟨leaf_survives (by unfold GoodType; decide) (by decide) (by decide), by decide⟩
  · exact ⟨leaf_survives (by unfold GoodType; decide) (by decide) (by decide), by decide⟩

def six : Bytes := [0, 0, 0, 0, 0, 0]
def hd : Video := ⟨List.replicate 16 0, 1920, 1080, 4718592, 4718592, 0, 1, 3, [65, 86, 67] ++ List.replicate 28 0, 24, 65535⟩
def stereo : Audio := ⟨List.replicate 8 0, 2, 16, 0, 48000, 0⟩
/-- Version 1 of QuickTime. -/
def quick : Audio := ⟨[0, 1, 0, 0, 0, 0, 0, 0], 2, 16, 0, 44100, 0⟩

theorem hd_fits : hd.Fits := ⟨rfl, by decide, by decide, by decide, by decide, by decide, by decide, by decide, rfl, by decide, by decide⟩
theorem stereo_fits : stereo.Fits := ⟨rfl, by decide, by decide, by decide, by decide, by decide⟩
theorem quick_fits : quick.Fits := ⟨rfl, by decide, by decide, by decide, by decide, by decide⟩

def avc : Entry Video Tree.Tree := ⟨fcc 'a' 'v' 'c' '1', six, 1, hd, [esds.val, btrt.val]⟩
def mp4a : Entry (Audio × Qt) Tree.Tree := ⟨fcc 'm' 'p' '4' 'a', six, 1, (stereo, noQt), [esds.val, btrt.val]⟩

theorem avc_survives : Survives (visual leafs) (fcc 'a' 'v' 'c' '1') avc
    (box (fcc 'a' 'v' 'c' '1') (headWire six 1 ++ (hd.wire ++ wire [esds, btrt]))) :=
  c70_visual family (x := avc) rfl ⟨rfl, by decide⟩ (by unfold GoodType; decide) hd_fits (by decide)
theorem mp4a_survives : Survives (audio leafs) (fcc 'm' 'p' '4' 'a') mp4a
    (box (fcc 'm' 'p' '4' 'a') (headWire six 1 ++ (stereo.wire ++ wire [esds, btrt]))) :=
  c70_audio_partial family (x := mp4a) rfl ⟨rfl, by decide⟩ (by unfold GoodType; decide) stereo_fits rfl (by decide)

example := c70_plain family (x := ⟨fcc 'm' 'p' '4' 's', six, 1, (), [esds.val, btrt.val]⟩) rfl ⟨rfl, by decide⟩
  (by unfold GoodType; decide) (by decide)
example := c70_volumetric family
  (x := ⟨fcc 'v' '3' 'c' '1', six, 1, ⟨2, [65, 66] ++ List.replicate 29 0⟩, [esds.val, btrt.val]⟩) rfl ⟨rfl, by decide⟩
  (by unfold GoodType; decide) (by decide) rfl (by decide)
example := c70_restricted family (x := ⟨fcc 'r' 'e' 's' 'v', six, 1, hd, [esds.val, btrt.val]⟩) rfl ⟨rfl, by decide⟩
  (by unfold GoodType; decide) hd_fits (by decide)
example := c70_mebx family_keys (x := ⟨fcc 'm' 'e' 'b' 'x', six, 1, true, [keys.val, btrt.val]⟩) rfl ⟨rfl, by decide⟩
  (by unfold GoodType; decide) (by decide) (by decide) (by decide)
example := c70_encVisual family (s := some sinf) family_sinf (by decide) (by intro k hk; cases hk; rfl)
  (x := ⟨fcc 'e' 'n' 'c' 'v', six, 1, hd, [esds.val, btrt.val], some sinf.val⟩) rfl rfl ⟨rfl, by decide⟩
  (by unfold GoodType; decide) hd_fits (by decide)
example := c70_encAudio family (s := some sinf) family_sinf (by decide) (by intro k hk; cases hk; rfl)
  (x := ⟨fcc 'e' 'n' 'c' 'a', six, 1, stereo, [esds.val, btrt.val], some sinf.val⟩) rfl rfl ⟨rfl, by decide⟩
  (by unfold GoodType; decide) stereo_fits (by decide)

/-- Two protection boxes. -/
example := c70_enc_reads (C := leafs) (ks := [sinf, esds, sinf, btrt]) (by
    intro k hk
    simp only [List.mem_cons, List.not_mem_nil, or_false] at hk
    rcases hk with rfl | rfl | rfl | rfl
    · exact family_sinf.readable _ (by simp)
    · exact family.readable _ (by simp)
    · exact family_sinf.readable _ (by simp)
    · exact family.readable _ (by simp))
  (type := fcc 'e' 'n' 'c' 'v') (reserved := six) (dref := 1) (f := hd) ⟨rfl, by decide⟩ (by unfold GoodType; decide)
  hd_fits (by decide)
example := c70_mebx_twice (C := leafs) (k1 := keys) (k2 := keys) (ks := []) (by
    intro k hk
    simp only [List.mem_cons, List.not_mem_nil, or_false, or_self] at hk
    subst hk
    exact family_keys.readable _ (by simp))
  rfl rfl (type := fcc 'm' 'e' 'b' 'x') (reserved := six) (dref := 1) ⟨rfl, by decide⟩ (by unfold GoodType; decide)
  (by decide) []
example := c70_visual_reads (C := leafs) family.readable (pad := [0, 0, 0, 0]) (type := fcc 'a' 'v' 'c' '1')
  (reserved := six) (dref := 1) (f := hd) ⟨rfl, by decide⟩ (by unfold GoodType; decide) hd_fits (by decide) (by decide)
example := c70_generic_flat family (x := ⟨fcc 'm' 'i' 'n' 'e', six, 1, [1, 2, 3], [esds.val, btrt.val]⟩) rfl
  ⟨rfl, by decide⟩ (by unfold GoodType; decide) (by decide)
example := c70_generic_partial (C := leafs) (x := ⟨fcc 'm' 'i' 'n' 'e', six, 1, [1, 2, 3], []⟩) rfl ⟨rfl, by decide⟩
  (by unfold GoodType; decide) (by decide)

/-- The fields of QuickTime with 64 samples per packet: the box that they make ends in what follows the entry. -/
example := c70_audio_qt_reads (C := leafs) family.readable (type := fcc 'm' 'p' '4' 'a') (reserved := six) (dref := 1)
  (f := quick) (q := ⟨64, 2, 4, 2⟩) ⟨rfl, by decide⟩ (by unfold GoodType; decide) quick_fits rfl
  (by unfold Qt.Fits; decide) (by decide) (rest := List.replicate 100 0) (r := List.replicate 74 0)
  (by
    have e : Qt.wire ⟨64, 2, 4, 2⟩ ++ (wire [esds, btrt] ++ List.replicate 100 0) =
      box 2 (be 4 4 ++ (be 4 2 ++ (wire [esds, btrt] ++ List.replicate 26 0))) ++ List.replicate 74 0 := by decide +kernel
    rw [e]
    exact leaf_parse (by unfold GoodType; decide) (by decide) (by decide) _)
  (by decide) (by decide)
example := c70_audio_qt_lost family (x := ⟨fcc 'm' 'p' '4' 'a', six, 1, (quick, ⟨64, 2, 4, 2⟩), [esds.val, btrt.val]⟩) rfl
  ⟨rfl, by decide⟩ (by unfold GoodType; decide) quick_fits (by decide) (by decide)
/-- Four bytes that say that a box of seven bytes follows. -/
example := c70_audio_broken (C := leafs) family.readable (bad := [0, 0, 0, 7]) (rest := [0, 0, 0, 0])
  (type := fcc 'm' 'p' '4' 'a') (reserved := six) (dref := 1) (f := stereo) (e := .badData) ⟨rfl, by decide⟩
  (by unfold GoodType; decide) stereo_fits (by decide) rfl (by decide)
example := c70_audio_padding (C := leafs) family.readable (pad := [0, 0]) (type := fcc 'm' 'p' '4' 'a') (reserved := six)
  (dref := 1) (f := stereo) ⟨rfl, by decide⟩ (by unfold GoodType; decide) stereo_fits (by decide) (by decide) (by decide)
example := c70_audio_mace (C := leafs) (more := wire [esds]) (type := fcc 'm' 'p' '4' 'a') (reserved := six)
  (dref := 1) (f := quick) (q := ⟨6, 1, 2, 2⟩) ⟨rfl, by decide⟩ (by unfold GoodType; decide) quick_fits (by decide)
  (by decide) (by decide) []

example := c70_text_partial family (x := ⟨fcc 'm' 'e' 't' 't', six, 1, ⟨none, some [116, 47, 120, 0]⟩, [esds.val, btrt.val]⟩)
  rfl ⟨rfl, by decide⟩ (by unfold GoodType; decide) (a := none) (b := some [116, 47, 120]) ⟨by decide, by decide⟩
  ⟨by decide, by decide⟩ rfl (by decide)
example := c70_xml_partial family
  (x := ⟨fcc 'm' 'e' 't' 'x', six, 1, ⟨none, some [117, 58, 120, 0], none⟩, [esds.val, btrt.val]⟩)
  rfl ⟨rfl, by decide⟩ (by unfold GoodType; decide) (a := none) (b := some [117, 58, 120]) (c := none)
  ⟨by decide, by decide⟩ ⟨by decide, by decide⟩ ⟨by decide, by decide⟩ rfl (by decide)
example := c70_xml_namespace (C := leafs) (type := fcc 'm' 'e' 't' 'x') (reserved := six) (dref := 1) (a := [])
  (b := [117, 58, 120]) ⟨rfl, by decide⟩ (by unfold GoodType; decide) ⟨by decide, by decide⟩ ⟨by decide, by decide⟩
example := c70_text_long family
  (x := ⟨fcc 'm' 'e' 't' 't', six, 1, ⟨some (List.replicate 1024 65 ++ [0]), some [0]⟩, [esds.val, btrt.val]⟩) rfl
  ⟨rfl, by decide⟩ (by unfold GoodType; decide) (a := List.replicate 1024 65) (b := []) (n := 1024)
  ⟨by intro b hb; simp only [Option.getD_some] at hb; rw [List.eq_of_mem_replicate hb]; decide, Nat.le_of_eq List.length_replicate⟩
  ⟨by decide, by decide⟩ rfl (by rw [List.length_replicate]; decide) (Nat.le_of_eq List.length_replicate.symm) []
example := c70_text_open (C := leafs) (type := fcc 'm' 'e' 't' 't') (reserved := six) (dref := 1) (a := [65, 66])
  (t := [67]) ⟨rfl, by decide⟩ (by unfold GoodType; decide) ⟨by decide, by decide⟩ (by decide) [1, 2]

example := c70_unlisted family (x := ⟨fcc 'h' 'v' 'c' '2', six, 1, hd, [esds.val, btrt.val]⟩) rfl ⟨rfl, by decide⟩
  (by unfold GoodType; decide) hd_fits (by decide) (by decide)
/-- Two entries. -/
example := c70_stsd_any (C := leafs)
  (es := [⟨fcc 'a' 'v' 'c' '1', .visual avc, box (fcc 'a' 'v' 'c' '1') (headWire six 1 ++ (hd.wire ++ wire [esds, btrt]))⟩,
    ⟨fcc 'm' 'p' '4' 'a', .audio mp4a, box (fcc 'm' 'p' '4' 'a') (headWire six 1 ++ (stereo.wire ++ wire [esds, btrt]))⟩])
  (by
    intro k hk
    simp only [List.mem_cons, List.not_mem_nil, or_false] at hk
    rcases hk with rfl | rfl
    · exact ⟨.visual (by decide) avc_survives, by decide⟩
    · exact ⟨.audio (by decide) mp4a_survives, by decide⟩)
  (x := ⟨0, 0, [.visual avc, .audio mp4a]⟩) rfl (by decide) (by decide) (by decide +kernel)
example := c70_stsd_count (C := leafs) (ks := [esds]) (k := btrt) (more := []) family.readable (version := 0) (flags := 0)
  (by decide) (by decide) (by decide) []
example : (Stsd.mk 0 0 [10, 20, 30]).getEntry 3 = .ok 30 ∧ (Stsd.mk 0 0 [10, 20, 30]).getEntry 0 = .err .badParam :=
  ⟨c70_getEntry _ 3, c70_getEntry _ 0⟩

end Verif.Ent
