import Verif.Spec.Protect
import Verif.Lemmas.Entries
import Verif.Props.C68
import Verif.Props.C69

/-!
# Lemmas on protected and restricted sample entries
-/

namespace Verif.Prot

open Verif.Ent
open Verif.Str (Schm)
open Verif.Rows (ISFM)

variable {α β φ : Type}

/-! ## Writing -/

theorem Writes.of {C : Class α} {x : α} {type : Nat} {payload : Bytes} (hz : C.size x = 8 + payload.length)
    (hser : EmitsFull (C.ser x) ((be 4 (8 + payload.length) ++ be 4 type) ++ payload))
    (hs : 8 + payload.length < 4294967296) : Writes C x (box type payload) := by
  refine ⟨by rw [box_length, hz], ?_⟩
  rw [hz]
  exact hser.runW (by simp; omega) hs

theorem Writes.ofTrip {C : Class α} {x : α} {size : Nat} {ser : W} {body : Hdr → P β} {v : β} {bytes : Bytes}
    (h : BoxRoundTrip size ser body v bytes) (hz : C.size x = size) (hser : C.ser x = ser) : Writes C x bytes :=
  ⟨by rw [hz, h.length], by rw [hz, hser]; exact h.write⟩

theorem survives_writes {C : Class α} {t : Nat} {x : α} {b : Bytes} (h : Survives C t x b) : Writes C x b := ⟨h.size, h.write⟩

def WritesAll (C : Class α) (ks : List (Kid α)) : Prop := ∀ k ∈ ks, Writes C k.val k.bytes

theorem writesAll_cons {C : Class α} {k : Kid α} {ks : List (Kid α)} (h : WritesAll C (k :: ks)) :
    Writes C k.val k.bytes ∧ WritesAll C ks := ⟨h k (by simp), fun x hx => h x (by simp [hx])⟩

theorem listSize_writes {C : Class α} {ks : List (Kid α)} (h : WritesAll C ks) {n : Nat}
    (hn : n + (wire ks).length < 4294967296) : listSize C n (vals ks) = n + (wire ks).length := by
  induction ks generalizing n with
  | nil => simp [vals, listSize, wire]
  | cons k ks ih =>
    obtain ⟨h1, h2⟩ := writesAll_cons h
    rw [wire_cons] at hn ⊢
    simp only [List.length_append] at hn ⊢
    show listSize C ((n + C.size k.val) % 4294967296) (vals ks) = _
    rw [h1.size, Nat.mod_eq_of_lt (by omega), ih h2 (by omega)]
    omega

theorem emits_writes {C : Class α} {ks : List (Kid α)} (h : WritesAll C ks) : Emits (serList C (vals ks)) (wire ks) := by
  induction ks with
  | nil => exact emits_skip
  | cons k ks ih =>
    obtain ⟨h1, h2⟩ := writesAll_cons h
    rw [wire_cons]
    exact (emits_nested h1.write h1.size.symm).seq (ih h2)

theorem schi_writes {C : Class α} {ks : List (Kid (Info α))} (h : WritesAll (info C) ks)
    (hl : 8 + (wire ks).length < 4294967296) : Writes (schi C) (vals ks) (box (fcc 's' 'c' 'h' 'i') (wire ks)) := by
  refine Writes.of (listSize_writes h hl) ?_ hl
  show EmitsFull (serBase (listSize (info C) 8 (vals ks)) tSchi ;; serList (info C) (vals ks) ;; W.assertFull) _
  rw [listSize_writes h hl]
  exact (emits_serBase _ _).then (emits_writes h).thenAssert

theorem sinf_writes {C : Class α} {x : Sinf α} {ks : List (Kid (Part α))} (hx : x.parts = vals ks)
    (h : WritesAll (part C) ks) (hl : 8 + (wire ks).length < 4294967296) :
    Writes (sinf C) x (box (fcc 's' 'i' 'n' 'f') (wire ks)) := by
  refine Writes.of (by show listSize (part C) 8 x.parts = _; rw [hx]; exact listSize_writes h hl) ?_ hl
  show EmitsFull (serBase (listSize (part C) 8 x.parts) typeSinf ;; serList (part C) x.parts ;; W.assertFull) _
  rw [hx, listSize_writes h hl]
  exact (emits_serBase _ _).then (emits_writes h).thenAssert

theorem rinf_writes {C : Class α} {x : Rinf α} {ks : List (Kid (Part α))} (hx : x.list = vals ks)
    (h : WritesAll (part C) ks) (hl : 8 + (wire ks).length < 4294967296) :
    Writes (rinf C) x (box (fcc 'r' 'i' 'n' 'f') (wire ks)) := by
  refine Writes.of (by show listSize (part C) 8 x.list = _; rw [hx]; exact listSize_writes h hl) ?_ hl
  show EmitsFull (serBase (listSize (part C) 8 x.list) tRinf ;; serList (part C) x.list ;; W.assertFull) _
  rw [hx, listSize_writes h hl]
  exact (emits_serBase _ _).then (emits_writes h).thenAssert

/-- The class of protected entries with fields of a kind. -/
def encClass (C : Class α) (get : P φ) (n : Nat) (put : φ → W) : Class (EncEntry φ α) :=
  ⟨EncEntry.parse C get, fun x => x.calcSize C n, fun x => x.serialize C n put⟩

theorem enc_writes {C : Class α} {ks : List (Kid α)} (hk : WritesAll C ks) {s : Option (Kid α)} (hs : WritesAll C s.toList)
    {x : EncEntry φ α} {get : P φ} {put : φ → W} {w : Bytes} (hput : Emits (put x.fields) w) (hx : x.ext = vals ks)
    (hy : x.sinf = s.map (·.val)) (hh : HeadFits x.reserved x.dref) (ht : GoodType x.type)
    (hl : 16 + w.length + (wire ks).length + (wire s.toList).length < 4294967296) :
    Writes (encClass C get (16 + w.length) put) x (box x.type (encWire x.reserved x.dref w ks s)) := by
  have hz : x.calcSize C (16 + w.length) = 16 + w.length + (wire ks).length + (wire s.toList).length := by
    unfold EncEntry.calcSize
    rw [hx, hy]
    cases s with
    | none =>
      rw [Option.map_none]
      simp only
      rw [listSize_writes hk (by omega)]
      simp [wire]
    | some k =>
      rw [Option.map_some]
      simp only
      have e : wire (some k).toList = k.bytes := by simp [wire]
      rw [e] at hl ⊢
      rw [(hs k (by simp)).size, Nat.mod_eq_of_lt (by omega), listSize_writes hk (by omega)]
      omega
  have e : 8 + (encWire x.reserved x.dref w ks s).length = 16 + w.length + (wire ks).length + (wire s.toList).length := by
    simp only [encWire, List.length_append, headWire_length hh]; omega
  refine Writes.of (by rw [e]; exact hz) ?_ (by rw [e]; exact hl)
  show EmitsFull (x.serialize C (16 + w.length) put) _
  unfold EncEntry.serialize
  rw [if_neg (by have := ht.1; omega), hz, e]
  refine (emits_serBase _ _).then ?_
  unfold encWire headWire
  rw [List.append_assoc, hx]
  refine (emits_bytes _).then ((emits_put16 _).then (hput.then ((emits_writes hk).then ?_)))
  refine Emits.thenAssert ?_
  rw [hy]
  cases s with
  | none => exact emits_skip
  | some k =>
    have := hs k (by simp)
    have e : wire (some k).toList = k.bytes := by simp [wire]
    rw [e]
    exact emits_nested this.write this.size.symm

/-! ## Reading -/

/-- The header of a box of less than 4 GB is known. -/
theorem header_box {type : Nat} {payload : Bytes} (hs : 8 + payload.length < 4294967296) (ht : GoodType type) (r : Bytes) :
    parseHeader (box type payload ++ r) = .ok (⟨8 + payload.length, type, [], 0, 8⟩, payload ++ r) := by
  rw [box_eq, List.append_assoc]
  exact parseHeader_small hs (by omega) ht.2.1 ht.uuid _ (by simp)

theorem parseAtom_header {body : Hdr → P α} {inp r : Bytes} {h h' : Hdr} {x : α} {r' : Bytes}
    (h1 : parseHeader inp = .ok (h, r)) (h2 : parseAtom body inp = .ok (x, h', r')) : h' = h := by
  unfold parseAtom at h2
  rw [h1] at h2
  simp only at h2
  split at h2
  · simp only [Res.ok.injEq, Prod.mk.injEq] at h2
    exact h2.2.1.symm
  · cases h2
  · cases h2

theorem reads_ofTrip {C : Class α} {size : Nat} {ser : W} {body : Hdr → P β} {v : β} {f : β → α} {type : Nat}
    {payload : Bytes} (h : BoxRoundTrip size ser body v (box type payload)) (hs : 8 + payload.length < 4294967296)
    (ht : GoodType type) (hp : ∀ hd : Hdr, hd.type = type → C.parse hd = Ent.P.as f (body hd)) :
    Reads C type (f v) (box type payload) := by
  refine ⟨by rw [box_length]; omega, fun rest => ?_⟩
  obtain ⟨hd, hd'⟩ := h.read rest
  have := parseAtom_header (header_box hs ht rest) hd'
  subst this
  exact ⟨_, rfl, by rw [box_length], parseAtom_as hd' (hp _ rfl)⟩

theorem reads_into {C : Class α} {D : Class β} (f : α → β) {t : Nat} {x : α} {b : Bytes} (h : Reads C t x b)
    (hp : ∀ hd : Hdr, hd.type = t → D.parse hd = Ent.P.as f (C.parse hd)) : Reads D t (f x) b := by
  refine ⟨h.1, fun rest => ?_⟩
  obtain ⟨hd, h1, h2, h3⟩ := h.2 rest
  exact ⟨hd, h1, h2, parseAtom_as h3 (hp hd h1)⟩

theorem adds_app (l : List α) (ks : List (Kid α)) :
    adds (fun l _ c => .ok (l ++ [c])) l ks = .ok (l ++ vals (stay ks)) := by
  induction ks generalizing l with
  | nil => simp [adds, stay, vals]
  | cons k ks ih =>
    simp only [adds]
    rw [stay_cons]
    by_cases hf : Tree.isFree k.type
    · rw [if_pos hf, if_pos hf]
      show adds _ l ks = _
      rw [ih]; simp
    · rw [if_neg hf, if_neg hf]
      show adds _ (l ++ [k.val]) ks = _
      rw [ih]; simp

theorem schi_reads {C : Class α} {ks : List (Kid (Info α))} (h : Readable (info C) ks)
    (hl : 8 + (wire ks).length < 4294967296) :
    Reads (schi C) (fcc 's' 'c' 'h' 'i') (vals (stay ks)) (box (fcc 's' 'c' 'h' 'i') (wire ks)) := by
  refine reads_of ?_ hl (by unfold GoodType; decide)
  have := adds_app [] ks
  rw [List.nil_append] at this
  exact parsesAt_addAll h rfl hl this

theorem sinf_reads {C : Class α} {ks : List (Kid (Part α))} {x : Sinf α} (h : Readable (part C) ks)
    (ha : adds Sinf.add ⟨none, none, none⟩ ks = .ok x) (hl : 8 + (wire ks).length < 4294967296) :
    Reads (sinf C) (fcc 's' 'i' 'n' 'f') x (box (fcc 's' 'i' 'n' 'f') (wire ks)) :=
  reads_of (parsesAt_addAll h rfl hl ha) hl (by unfold GoodType; decide)

theorem rinf_reads {C : Class α} {ks : List (Kid (Part α))} {x : Rinf α} (h : Readable (part C) ks)
    (ha : adds Rinf.add ⟨[], none, none, none⟩ ks = .ok x) (hl : 8 + (wire ks).length < 4294967296) :
    Reads (rinf C) (fcc 'r' 'i' 'n' 'f') x (box (fcc 'r' 'i' 'n' 'f') (wire ks)) :=
  reads_of (parsesAt_addAll h rfl hl ha) hl (by unfold GoodType; decide)

theorem enc_reads {C : Class α} {ks : List (Kid α)} (hk : Readable C ks) {type dref : Nat} {reserved w : Bytes} {f : φ}
    {get : P φ} {n : Nat} {put : φ → W} (hget : ParsesAt get 16 w f) (hh : HeadFits reserved dref) (ht : GoodType type)
    (hl : 16 + w.length + (wire ks).length < 4294967296) :
    Reads (encClass C get n put) type
      ⟨type, reserved, dref, f, vals ((stay ks).filter fun k => k.type ≠ typeSinf),
        ((stay ks).filter fun k => k.type = typeSinf).getLast?.map (·.val)⟩
      (box type (headWire reserved dref ++ (w ++ wire ks))) := by
  have e : 8 + (headWire reserved dref ++ (w ++ wire ks)).length = 16 + w.length + (wire ks).length := by
    simp only [List.length_append, headWire_length hh]; omega
  refine reads_of ?_ (by rw [e]; exact hl) ht
  rw [e]
  show ParsesAt (EncEntry.parse C get _) _ _ _
  unfold EncEntry.parse headWire
  rw [List.append_assoc]
  refine ((parses_getBytes hh.1).at _).bind (((parses_get16' hh.2).at _).bind (ParsesAt.bind (by simpa [hh.1] using hget) ?_))
  refine ParsesAt.bind_nil (parsesAt_addAll hk ?_ hl (adds_enc [] none ks)) ?_
  · simp only [hh.1, be_length]
  · rw [List.nil_append, Option.or_none]
    exact (parses_pure _).at _

/-! ## The boxes of protection -/

theorem fullBox_box (type version flags : Nat) (payload : Bytes) :
    fullBox type version flags payload = box type (be 1 version ++ be 3 flags ++ payload) := rfl

theorem frma_writes (C : Class α) {n : Nat} (hn : n < 4294967296) :
    Writes (part C) (.frma n) (box (fcc 'f' 'r' 'm' 'a') (be 4 n)) := .ofTrip (Rows.c68_frma n hn) rfl rfl

theorem frma_reads (C : Class α) {n : Nat} (hn : n < 4294967296) :
    Reads (part C) (fcc 'f' 'r' 'm' 'a') (.frma n) (box (fcc 'f' 'r' 'm' 'a') (be 4 n)) :=
  reads_ofTrip (f := Part.frma) (Rows.c68_frma n hn) (by simp) (by unfold GoodType; decide) fun hd h => if_pos h

/-- What is in memory after the scheme was read. -/
def schmBack (scheme sv : Nat) (s : Bytes) : (Nat × Nat) × Schm :=
  if s = [] then ((0, 0), ⟨scheme, sv, none⟩) else ((0, 1), ⟨scheme, sv, some (s ++ [0])⟩)

theorem schmBack_scheme (scheme sv : Nat) (s : Bytes) : (schmBack scheme sv s).2.scheme = scheme := by
  unfold schmBack; split <;> rfl

theorem schmBack_version (scheme sv : Nat) (s : Bytes) : (schmBack scheme sv s).2.schemeVersion = sv := by
  unfold schmBack; split <;> rfl

theorem schm_trip {scheme sv : Nat} {s : Bytes} {p : Option Bytes} (h1 : scheme < 4294967296)
    (h2 : sv < 4294967296) (hs : Plain s) (hp : p = some (s ++ [0]) ∨ (p = none ∧ s = [])) (hn : 21 + s.length < 4294967296) :
    BoxRoundTrip (if s = [] then 20 else 21 + s.length) (Schm.serialize tSchm 0 ⟨scheme, sv, p⟩) Schm.parse
      (schmBack scheme sv s) (schemeWire scheme sv s) := by
  unfold schmBack schemeWire
  by_cases h0 : s = []
  · subst h0
    exact Str.c69_schm_none tSchm 0 scheme sv (by decide) (by decide) (by decide) h1 h2 p []
      (hp.elim .inr fun h => .inl h.1)
  · rw [if_neg h0, if_neg h0, if_neg h0]
    obtain rfl : p = some (s ++ [0]) := hp.elim id fun h => absurd h.2 h0
    exact Str.c69_schm tSchm 0 scheme sv s (by decide) (by decide) (by decide) h1 h2 hs h0 hn

theorem schm_writes (C : Class α) {scheme sv f : Nat} {s : Bytes} {p : Option Bytes} (h1 : scheme < 4294967296)
    (h2 : sv < 4294967296) (hs : Plain s) (hp : p = some (s ++ [0]) ∨ (p = none ∧ s = [])) (hn : 21 + s.length < 4294967296) :
    Writes (part C) (.schm (0, f) ⟨scheme, sv, p⟩) (schemeWire scheme sv s) := by
  refine .ofTrip (schm_trip h1 h2 hs hp hn) ?_ rfl
  show schmSize _ = _
  unfold schmSize
  by_cases h0 : s = []
  · subst h0
    rcases hp with rfl | ⟨rfl, _⟩ <;> rfl
  · obtain rfl : p = some (s ++ [0]) := hp.elim id fun h => absurd h.2 h0
    have hw : Schm.written ⟨scheme, sv, some (s ++ [0])⟩ = some (some s) := by
      unfold Schm.written
      simp only [Str.cstr_text hs]
    rw [hw, if_neg h0]
    simp only
    omega

theorem schemeWire_length (scheme version : Nat) (url : Bytes) :
    (schemeWire scheme version url).length = if url = [] then 20 else 21 + url.length := by
  unfold schemeWire
  split <;> simp [fullBox, box] <;> omega

theorem schm_reads (C : Class α) {scheme sv : Nat} {s : Bytes} (h1 : scheme < 4294967296) (h2 : sv < 4294967296)
    (hs : Plain s) (hn : 21 + s.length < 4294967296) :
    Reads (part C) (fcc 's' 'c' 'h' 'm') (.schm (schmBack scheme sv s).1 (schmBack scheme sv s).2) (schemeWire scheme sv s) := by
  have hp : ∀ hd : Hdr, hd.type = fcc 's' 'c' 'h' 'm' →
      (part C).parse hd = Ent.P.as (fun v => Part.schm v.1 v.2) (Schm.parse hd) := by
    intro hd h
    show (if hd.type = tFrma then _ else if hd.type = tSchm then _ else _) = _
    rw [if_neg (by rw [h]; decide)]
    exact if_pos h
  have trip := schm_trip h1 h2 hs (.inl rfl) hn
  unfold schemeWire at trip ⊢
  by_cases h0 : s = []
  · rw [if_pos h0, if_pos h0] at trip
    rw [if_pos h0]
    exact reads_ofTrip (f := fun v : (Nat × Nat) × Schm => Part.schm v.1 v.2) trip (by simp) (by unfold GoodType; decide) hp
  · rw [if_neg h0, if_neg h0] at trip
    rw [if_neg h0]
    exact reads_ofTrip (f := fun v : (Nat × Nat) × Schm => Part.schm v.1 v.2) trip (by simp; omega) (by unfold GoodType; decide) hp

theorem schi_part {C : Class α} {ks : List (Kid (Info α))} (h : Readable (info C) ks)
    (hl : 8 + (wire ks).length < 4294967296) :
    Reads (part C) (fcc 's' 'c' 'h' 'i') (.schi (vals (stay ks))) (box (fcc 's' 'c' 'h' 'i') (wire ks)) := by
  refine reads_into Part.schi (schi_reads h hl) fun hd ht => ?_
  show (if hd.type = tFrma then _ else if hd.type = tSchm then _ else if hd.type = tSchi then _ else _) = _
  rw [if_neg (by rw [ht]; decide), if_neg (by rw [ht]; decide)]
  exact if_pos ht

theorem kms_writes (C : Class α) {s : Bytes} {p : Option Bytes} (hs : Plain s)
    (hp : p = some (s ++ [0]) ∨ (p = none ∧ s = [])) (hn : 13 + s.length < 4294967296) :
    Writes (info C) (.kms (0, 0) p) (fullBox (fcc 'i' 'K' 'M' 'S') 0 0 (s ++ [0])) := by
  refine .ofTrip (Str.c69_ikms 0 0 s p (by decide) (by decide) hs hp hn) ?_ rfl
  rcases hp with rfl | ⟨rfl, rfl⟩
  · show Str.ikmsSize ((Str.cstr (s ++ [0])).getD []) = _
    rw [Str.cstr_text hs]
    unfold Str.ikmsSize
    simp only [Option.getD_some]
    omega
  · rfl

theorem kms_reads (C : Class α) {s : Bytes} (hs : Plain s) (hn : 13 + s.length < 4294967296) :
    Reads (info C) (fcc 'i' 'K' 'M' 'S') (.kms (0, 0) (some (s ++ [0]))) (fullBox (fcc 'i' 'K' 'M' 'S') 0 0 (s ++ [0])) :=
  reads_ofTrip (f := fun v => Info.kms v.1 v.2) (Str.c69_ikms 0 0 s _ (by decide) (by decide) hs (.inl rfl) hn)
    (by simp; omega) (by unfold GoodType; decide) fun hd h => if_pos h

/-- An address without its NUL. -/
theorem kms_open (C : Class α) {s : Bytes} (h0 : s ≠ []) (hn : 12 + s.length < 4294967296) :
    Reads (info C) (fcc 'i' 'K' 'M' 'S') (.kms (0, 0) (some s)) (fullBox (fcc 'i' 'K' 'M' 'S') 0 0 s) := by
  have hp : s.length > 0 := List.length_pos_iff.2 h0
  have h : ParsesAt (Str.ikmsParse ⟨12 + s.length, fcc 'i' 'K' 'M' 'S', [], 0, 8⟩) 8
      (be 1 0 ++ be 3 0 ++ s) ((0, 0), some s) := by
    unfold Str.ikmsParse
    refine ((parses_versionFlags (by decide) (by decide)).at _).bind ?_
    refine Str.parsesAt_bytesLeft (n := s.length) (by simp) hn ?_
    rw [if_pos hp]
    exact ((parses_getBytes rfl).at _).bind_nil ((parses_pure _).at _)
  have e : 8 + (be 1 0 ++ be 3 0 ++ s).length = 12 + s.length := by simp; omega
  refine reads_of ?_ (by rw [e]; exact hn) (by unfold GoodType; decide)
  rw [e]
  have e' : ∀ hd : Hdr, hd.type = tKms → (info C).parse hd = Ent.P.as (fun v => Info.kms v.1 v.2) (Str.ikmsParse hd) :=
    fun hd h => if_pos h
  rw [e' _ rfl]
  exact h.bind_nil ((parses_pure _).at _)

theorem sfm_writes (C : Class α) {x : ISFM} (hx : FormatFits x) :
    Writes (info C) (.sfm (0, 0) x)
      (fullBox (fcc 'i' 'S' 'F' 'M') 0 0 (be 1 x.selective ++ (be 1 x.keyLen ++ be 1 x.ivLen))) :=
  .ofTrip (Rows.c68_isfm 0 0 x (by decide) (by decide) hx.1 hx.2 hx.3) rfl rfl

theorem sfm_reads (C : Class α) {x : ISFM} (hx : FormatFits x) :
    Reads (info C) (fcc 'i' 'S' 'F' 'M') (.sfm (0, 0) x)
      (fullBox (fcc 'i' 'S' 'F' 'M') 0 0 (be 1 x.selective ++ (be 1 x.keyLen ++ be 1 x.ivLen))) := by
  refine reads_ofTrip (f := fun v => Info.sfm v.1 v.2) (Rows.c68_isfm 0 0 x (by decide) (by decide) hx.1 hx.2 hx.3)
    (by simp) (by unfold GoodType; decide) fun hd h => ?_
  show (if hd.type = tKms then _ else if hd.type = tSfm then _ else _) = _
  rw [if_neg (by rw [h]; decide)]
  exact if_pos h

theorem slt_writes (C : Class α) {n : Nat} (hn : n < 18446744073709551616) :
    Writes (info C) (.slt n) (box (fcc 'i' 'S' 'L' 'T') (be 8 n)) := .ofTrip (Rows.c68_islt n hn) rfl rfl

theorem slt_reads (C : Class α) {n : Nat} (hn : n < 18446744073709551616) :
    Reads (info C) (fcc 'i' 'S' 'L' 'T') (.slt n) (box (fcc 'i' 'S' 'L' 'T') (be 8 n)) := by
  refine reads_ofTrip (f := Info.slt) (Rows.c68_islt n hn) (by simp) (by unfold GoodType; decide) fun hd h => ?_
  show (if hd.type = tKms then _ else if hd.type = tSfm then _ else if hd.type = tSlt then _ else _) = _
  rw [if_neg (by rw [h]; decide), if_neg (by rw [h]; decide)]
  exact if_pos h

/-- The boxes of ISMACryp in the scheme information. -/
def ismaKids (x : ISFM) (p : Option Bytes) (s : Bytes) (salt : Nat) : List (Kid (Info α)) :=
  [⟨fcc 'i' 'K' 'M' 'S', .kms (0, 0) p, fullBox (fcc 'i' 'K' 'M' 'S') 0 0 (s ++ [0])⟩,
    ⟨fcc 'i' 'S' 'F' 'M', .sfm (0, 0) x,
      fullBox (fcc 'i' 'S' 'F' 'M') 0 0 (be 1 x.selective ++ (be 1 x.keyLen ++ be 1 x.ivLen))⟩] ++
    if salt = 0 then [] else [⟨fcc 'i' 'S' 'L' 'T', .slt salt, box (fcc 'i' 'S' 'L' 'T') (be 8 salt)⟩]

theorem wire_ismaKids (x : ISFM) (p : Option Bytes) (s : Bytes) (salt : Nat) :
    wire (ismaKids (α := α) x p s salt) = ismaWire x s salt := by
  unfold ismaKids ismaWire wire
  by_cases h : salt = 0 <;> simp [h]

theorem stay_ismaKids (x : ISFM) (p : Option Bytes) (s : Bytes) (salt : Nat) :
    stay (ismaKids (α := α) x p s salt) = ismaKids x p s salt := by
  apply List.filter_eq_self.2
  intro k hk
  unfold ismaKids at hk
  by_cases h : salt = 0
  · simp [h] at hk
    rcases hk with rfl | rfl
    · exact (by decide : decide (¬ Dropped (fcc 'i' 'K' 'M' 'S')) = true)
    · exact (by decide : decide (¬ Dropped (fcc 'i' 'S' 'F' 'M')) = true)
  · simp [h] at hk
    rcases hk with rfl | rfl | rfl
    · exact (by decide : decide (¬ Dropped (fcc 'i' 'K' 'M' 'S')) = true)
    · exact (by decide : decide (¬ Dropped (fcc 'i' 'S' 'F' 'M')) = true)
    · exact (by decide : decide (¬ Dropped (fcc 'i' 'S' 'L' 'T')) = true)

theorem ismaKids_writes (C : Class α) {x : ISFM} (hx : FormatFits x) {s : Bytes} {p : Option Bytes} {salt : Nat} (hs : Plain s)
    (hp : p = some (s ++ [0]) ∨ (p = none ∧ s = [])) (hn : 13 + s.length < 4294967296)
    (ht : salt < 18446744073709551616) : WritesAll (info C) (ismaKids x p s salt) := by
  intro k hk
  unfold ismaKids at hk
  by_cases h : salt = 0
  · simp only [h, if_true, List.append_nil, List.mem_cons, List.not_mem_nil, or_false] at hk
    rcases hk with rfl | rfl
    · exact kms_writes C hs hp hn
    · exact sfm_writes C hx
  · simp only [h, if_false, List.cons_append, List.nil_append, List.mem_cons, List.not_mem_nil, or_false] at hk
    rcases hk with rfl | rfl | rfl
    · exact kms_writes C hs hp hn
    · exact sfm_writes C hx
    · exact slt_writes C ht

theorem ismaKids_reads (C : Class α) {x : ISFM} (hx : FormatFits x) {s : Bytes} {salt : Nat} (hs : Plain s)
    (hn : 13 + s.length < 4294967296) (ht : salt < 18446744073709551616) :
    Readable (info C) (ismaKids x (some (s ++ [0])) s salt) := by
  intro k hk
  unfold ismaKids at hk
  by_cases h : salt = 0
  · simp only [h, if_true, List.append_nil, List.mem_cons, List.not_mem_nil, or_false] at hk
    rcases hk with rfl | rfl
    · exact kms_reads C hs hn
    · exact sfm_reads C hx
  · simp only [h, if_false, List.cons_append, List.nil_append, List.mem_cons, List.not_mem_nil, or_false] at hk
    rcases hk with rfl | rfl | rfl
    · exact kms_reads C hs hn
    · exact sfm_reads C hx
    · exact slt_reads C ht

/-- The three boxes of a protection or restriction box. -/
def partKids (format scheme version : Nat) (url : Bytes) (v : (Nat × Nat) × Schm) (l : List (Info α)) (infos : Bytes) :
    List (Kid (Part α)) :=
  [⟨fcc 'f' 'r' 'm' 'a', .frma format, box (fcc 'f' 'r' 'm' 'a') (be 4 format)⟩,
    ⟨fcc 's' 'c' 'h' 'm', .schm v.1 v.2, schemeWire scheme version url⟩,
    ⟨fcc 's' 'c' 'h' 'i', .schi l, box (fcc 's' 'c' 'h' 'i') infos⟩]

theorem wire_partKids (format scheme version : Nat) (url : Bytes) (v : (Nat × Nat) × Schm) (l : List (Info α)) (infos : Bytes) :
    wire (partKids format scheme version url v l infos) = partsWire format scheme version url infos := by
  simp [wire, partKids, partsWire]

theorem partsWire_length (format scheme version : Nat) (url infos : Bytes) :
    (partsWire format scheme version url infos).length ≤ 41 + url.length + infos.length := by
  have := schemeWire_length scheme version url
  simp only [partsWire, List.length_append, box_length, be_length]
  by_cases h : url = []
  · rw [if_pos h] at this; omega
  · rw [if_neg h] at this; omega

theorem partKids_writes {C : Class α} {format scheme version f : Nat} {url : Bytes} {p : Option Bytes}
    (h : SchemeFits format scheme version url) (hp : p = some (url ++ [0]) ∨ (p = none ∧ url = []))
    {ks : List (Kid (Info α))} (hk : WritesAll (info C) ks) (hl : 41 + url.length + (wire ks).length < 4294967296) :
    WritesAll (part C) (partKids format scheme version url ((0, f), ⟨scheme, version, p⟩) (vals ks) (wire ks)) := by
  intro k hk'
  simp only [partKids, List.mem_cons, List.not_mem_nil, or_false] at hk'
  rcases hk' with rfl | rfl | rfl
  · exact frma_writes C h.format
  · exact schm_writes C h.scheme h.version h.text hp (by omega)
  · exact ⟨(schi_writes hk (by omega)).size, (schi_writes hk (by omega)).write⟩

theorem partKids_reads {C : Class α} {format scheme version : Nat} {url : Bytes} (h : SchemeFits format scheme version url)
    {ks : List (Kid (Info α))} (hk : Readable (info C) ks) (hl : 41 + url.length + (wire ks).length < 4294967296) :
    Readable (part C) (partKids format scheme version url (schmBack scheme version url) (vals (stay ks)) (wire ks)) := by
  intro k hk'
  simp only [partKids, List.mem_cons, List.not_mem_nil, or_false] at hk'
  rcases hk' with rfl | rfl | rfl
  · exact frma_reads C h.format
  · exact schm_reads C h.scheme h.version h.text (by omega)
  · exact schi_part hk (by omega)

theorem partKids_add (format scheme version : Nat) (url : Bytes) (v : (Nat × Nat) × Schm) (l : List (Info α)) (infos : Bytes) :
    adds Sinf.add ⟨none, none, none⟩ (partKids format scheme version url v l infos) = .ok ⟨some format, some v, some l⟩ := by
  have h1 : Tree.isFree (fcc 'f' 'r' 'm' 'a') = false := by decide
  have h2 : Tree.isFree (fcc 's' 'c' 'h' 'm') = false := by decide
  have h3 : Tree.isFree (fcc 's' 'c' 'h' 'i') = false := by decide
  simp only [adds, partKids, h1, h2, h3, Bool.false_eq_true, if_false]
  rfl

theorem partKids_radd (format scheme version : Nat) (url : Bytes) (v : (Nat × Nat) × Schm) (l : List (Info α)) (infos : Bytes) :
    adds Rinf.add ⟨[], none, none, none⟩ (partKids format scheme version url v l infos) =
      .ok ⟨[.frma format, .schm v.1 v.2, .schi l], some format, some v, some l⟩ := by
  have h1 : Tree.isFree (fcc 'f' 'r' 'm' 'a') = false := by decide
  have h2 : Tree.isFree (fcc 's' 'c' 'h' 'm') = false := by decide
  have h3 : Tree.isFree (fcc 's' 'c' 'h' 'i') = false := by decide
  simp only [adds, partKids, h1, h2, h3, Bool.false_eq_true, if_false]
  rfl

theorem sinfWire_length (format scheme version : Nat) (url infos : Bytes) :
    (sinfWire format scheme version url infos).length ≤ 49 + url.length + infos.length := by
  unfold sinfWire
  have := partsWire_length format scheme version url infos
  rw [box_length]; omega

theorem sinf_kid_writes {C : Class α} {format scheme version : Nat} {url : Bytes} {p : Option Bytes}
    (h : SchemeFits format scheme version url) (hp : p = some (url ++ [0]) ∨ (p = none ∧ url = []))
    {ks : List (Kid (Info α))} (hk : WritesAll (info C) ks) (hl : 49 + url.length + (wire ks).length < 4294967296) (f : Nat) :
    Writes (boxes C) (.sinf ⟨some format, some ((0, f), ⟨scheme, version, p⟩), some (vals ks)⟩)
      (sinfWire format scheme version url (wire ks)) := by
  have hle := partsWire_length format scheme version url (wire ks)
  have := sinf_writes (C := C) (x := ⟨some format, some ((0, f), ⟨scheme, version, p⟩), some (vals ks)⟩)
    (ks := partKids format scheme version url ((0, f), ⟨scheme, version, p⟩) (vals ks) (wire ks)) rfl
    (partKids_writes h hp hk (by omega)) (by rw [wire_partKids]; omega)
  rw [wire_partKids] at this
  exact ⟨this.size, this.write⟩

theorem sinf_kid_reads {C : Class α} {format scheme version : Nat} {url : Bytes} (h : SchemeFits format scheme version url)
    {ks : List (Kid (Info α))} (hk : Readable (info C) ks) (hl : 49 + url.length + (wire ks).length < 4294967296) :
    Reads (boxes C) (fcc 's' 'i' 'n' 'f')
      (.sinf ⟨some format, some (schmBack scheme version url), some (vals (stay ks))⟩)
      (sinfWire format scheme version url (wire ks)) := by
  have hle := partsWire_length format scheme version url (wire ks)
  have := sinf_reads (C := C) (x := ⟨some format, some (schmBack scheme version url), some (vals (stay ks))⟩)
    (ks := partKids format scheme version url (schmBack scheme version url) (vals (stay ks)) (wire ks))
    (partKids_reads h hk (by omega)) (partKids_add ..) (by rw [wire_partKids]; omega)
  rw [wire_partKids] at this
  exact reads_into Bx.sinf this fun hd ht => if_pos ht

/-! ## Boxes of other classes -/

def others (ks : List (Kid α)) : List (Kid (Bx α)) := ks.map fun k => ⟨k.type, .other k.val, k.bytes⟩

theorem wire_others (ks : List (Kid α)) : wire (others ks) = wire ks := by simp [wire, others, List.flatMap_map]

theorem others_survives {C : Class α} {ks : List (Kid α)} (h : Family C ks) (hno : ∀ k ∈ ks, k.type ≠ fcc 's' 'i' 'n' 'f') :
    Family (boxes C) (others ks) := by
  intro k hk
  obtain ⟨j, hj, rfl⟩ := List.mem_map.1 hk
  have hs := (h j hj).1
  refine ⟨⟨hs.size, hs.write, reads_into Bx.other hs.read fun hd ht => if_neg (by rw [ht]; exact hno j hj)⟩, (h j hj).2⟩

theorem family_writes {C : Class α} {ks : List (Kid α)} (h : Family C ks) : WritesAll C ks := fun k hk => survives_writes (h k hk).1

/-! ## Entries -/

theorem writesAll_append {C : Class α} {a b : List (Kid α)} (ha : WritesAll C a) (hb : WritesAll C b) : WritesAll C (a ++ b) :=
  fun k hk => (List.mem_append.1 hk).elim (ha k) (hb k)

theorem wire_append (a b : List (Kid α)) : wire (a ++ b) = wire a ++ wire b := by simp [wire]

theorem entry_writes {C : Class α} {ks : List (Kid α)} (hk : WritesAll C ks) {K : Class (Entry φ α)} {x : Entry φ α}
    {put : φ → W} {w : Bytes} (hx : x.ext = vals ks) (hh : HeadFits x.reserved x.dref) (ht : GoodType x.type)
    (hl : 16 + w.length + (wire ks).length < 4294967296)
    (hsize : K.size x = listSize C (16 + w.length) x.ext) (hser : K.ser x = x.serialize C (K.size x) put)
    (hput : Emits (put x.fields) w) :
    Writes K x (box x.type (headWire x.reserved x.dref ++ (w ++ wire ks))) := by
  have e : 8 + (headWire x.reserved x.dref ++ (w ++ wire ks)).length = 16 + w.length + (wire ks).length := by
    simp only [List.length_append, headWire_length hh]; omega
  have hz : K.size x = 16 + w.length + (wire ks).length := by rw [hsize, hx, listSize_writes hk hl]
  refine Writes.of (by rw [e, hz]) ?_ (by rw [e]; exact hl)
  rw [hser, e, hz]
  unfold Entry.serialize
  rw [if_neg (by have := ht.1; omega), hx]
  refine (emits_serBase _ _).then ?_
  unfold headWire
  rw [List.append_assoc]
  exact (emits_bytes _).then ((emits_put16 _).then (hput.then (emits_writes hk).thenAssert))

theorem parse_of_reads {C : Class α} {t : Nat} {x : α} {b : Bytes} (h : Reads C t x b) :
    ∃ hd : Hdr, hd.type = t ∧ parseAtom C.parse b = .ok (x, hd, []) ∧ ∃ r, parseHeader b = .ok (hd, r) := by
  obtain ⟨hd, h1, _, h3⟩ := h.2 []
  rw [List.append_nil] at h3
  refine ⟨hd, h1, h3, ?_⟩
  have h4 := h3
  unfold parseAtom at h4
  split at h4
  · rename_i h' r e
    exact ⟨r, by rw [e, parseAtom_header e h3]⟩
  · cases h4
  · cases h4

theorem vals_others (ks : List (Kid α)) : vals (others ks) = (vals ks).map Bx.other := by simp [vals, others]

theorem locked_reads {C : Class α} {ks : List (Kid α)} (hk : Family C ks) (hno : ∀ k ∈ ks, k.type ≠ fcc 's' 'i' 'n' 'f')
    {enc format scheme version dref : Nat} {url reserved w : Bytes} {infos : List (Kid (Info α))} {f : φ} {get : P φ} {n : Nat}
    {put : φ → W} (hs : SchemeFits format scheme version url) (hi : Readable (info C) infos) (hget : ParsesAt get 16 w f)
    (hh : HeadFits reserved dref) (he : GoodType enc)
    (hl : 65 + w.length + (wire ks).length + url.length + (wire infos).length < 4294967296) :
    Reads (encClass (boxes C) get n put) enc
      ⟨enc, reserved, dref, f, (vals ks).map Bx.other,
        some (.sinf ⟨some format, some (schmBack scheme version url), some (vals (stay infos))⟩)⟩
      (locked enc reserved dref w ks (sinfWire format scheme version url (wire infos))) := by
  have hf := others_survives hk hno
  have hr := sinf_kid_reads (C := C) hs hi (by omega)
  let sk : Kid (Bx α) := ⟨fcc 's' 'i' 'n' 'f',
    .sinf ⟨some format, some (schmBack scheme version url), some (vals (stay infos))⟩,
    sinfWire format scheme version url (wire infos)⟩
  have hall : Readable (boxes C) (others ks ++ [sk]) := by
    intro k hk'
    rcases List.mem_append.1 hk' with h | h
    · exact (hf k h).1.read
    · rw [List.mem_singleton] at h
      subst h
      exact hr
  have hw : wire (others ks ++ [sk]) = wire ks ++ sinfWire format scheme version url (wire infos) := by
    rw [wire_append, wire_others]; simp [wire, sk]
  have := enc_reads (n := n) (put := put) hall hget hh he (by
    rw [hw, List.length_append]
    have := sinfWire_length format scheme version url (wire infos)
    omega)
  rw [hw] at this
  have hd : Dropped (fcc 's' 'i' 'n' 'f') ↔ False := by decide
  have e0 : stay (others ks ++ [sk]) = others ks ++ [sk] := by
    unfold stay
    rw [List.filter_append]
    have := hf.stay
    unfold stay at this
    rw [this]
    simp [sk, hd]
  have e1 : (others ks).filter (fun k => decide (k.type ≠ typeSinf)) = others ks := by
    apply List.filter_eq_self.2
    intro k hk'
    obtain ⟨j, hj, rfl⟩ := List.mem_map.1 hk'
    have hj' : j.type ≠ typeSinf := hno j hj
    simpa using hj'
  have e2 : (others ks).filter (fun k => decide (k.type = typeSinf)) = [] := by
    apply List.filter_eq_nil_iff.2
    intro k hk'
    obtain ⟨j, hj, rfl⟩ := List.mem_map.1 hk'
    have hj' : j.type ≠ typeSinf := hno j hj
    simpa using hj'
  have h3 : sk.type = typeSinf := rfl
  rw [e0, List.filter_append, List.filter_append, e1, e2] at this
  simp only [List.filter_cons, h3, ne_eq, not_true_eq_false, decide_false, decide_true, if_true, List.filter_nil,
    Bool.false_eq_true, if_false, List.append_nil, List.nil_append, vals_others] at this
  exact this

theorem clear_reads {C : Class α} {ks : List (Kid α)} (hk : Family C ks) (hno : ∀ k ∈ ks, k.type ≠ fcc 's' 'i' 'n' 'f')
    {type dref : Nat} {reserved w : Bytes} {f : φ} {get : P φ} {n : Nat} {put : φ → W} (hget : ParsesAt get 16 w f)
    (hh : HeadFits reserved dref) (ht : GoodType type) (hl : 16 + w.length + (wire ks).length < 4294967296) :
    Reads (encClass (boxes C) get n put) type ⟨type, reserved, dref, f, (vals ks).map Bx.other, none⟩
      (clear type reserved dref w ks) := by
  have hf := others_survives hk hno
  have := enc_reads (n := n) (put := put) hf.readable hget hh ht (by rw [wire_others]; exact hl)
  have e1 : (others ks).filter (fun k => decide (k.type ≠ typeSinf)) = others ks := by
    apply List.filter_eq_self.2
    intro k hk'
    obtain ⟨j, hj, rfl⟩ := List.mem_map.1 hk'
    have hj' : j.type ≠ typeSinf := hno j hj
    simpa using hj'
  have e2 : (others ks).filter (fun k => decide (k.type = typeSinf)) = [] := by
    apply List.filter_eq_nil_iff.2
    intro k hk'
    obtain ⟨j, hj, rfl⟩ := List.mem_map.1 hk'
    have hj' : j.type ≠ typeSinf := hno j hj
    simpa using hj'
  rw [hf.stay, e1, e2, wire_others, vals_others] at this
  exact this

theorem isma_fits {t : Nat} (ht : t < 4294967296) : SchemeFits t tAes 1 isma :=
  ⟨ht, by decide, by decide, by unfold Plain; decide⟩

theorem ismaWire_length (x : ISFM) (s : Bytes) (salt : Nat) : (ismaWire x s salt).length ≤ 44 + s.length := by
  unfold ismaWire
  by_cases h : salt = 0 <;> simp [h, fullBox, box] <;> omega

/-- What is written for an entry that was read, with or without a protection box. -/
theorem protect_ok {C : Class α} {ks : List (Kid α)} (hk : Family C ks) (hno : ∀ k ∈ ks, k.type ≠ fcc 's' 'i' 'n' 'f')
    {t enc dref salt : Nat} {reserved w input : Bytes} {f : φ} {get : P φ} {put : φ → W} {s : Option (Bx α)} {hd : Hdr} {r : Bytes}
    {x : ISFM} {url : Option Bytes}
    (hp : parseAtom (encClass (boxes C) get (16 + w.length) put).parse input =
      .ok (⟨t, reserved, dref, f, (vals ks).map Bx.other, s⟩, hd, r))
    (hput : Emits (put f) w) (hh : HeadFits reserved dref) (ht : t < 4294967296) (he : GoodType enc) (hx : FormatFits x)
    (hu : Plain (url.getD [])) (hsalt : salt < 18446744073709551616)
    (hl : 200 + w.length + (wire ks).length + (url.getD []).length < 4294967296) :
    protect (encClass (boxes C) get (16 + w.length) put) enc input x url salt =
      .ok (locked enc reserved dref w ks (ismaSinf t x (url.getD []) salt)) := by
  have hf := others_survives hk hno
  have hp' : url.map (· ++ [0]) = some (url.getD [] ++ [0]) ∨ (url.map (· ++ [0]) = none ∧ url.getD [] = []) := by
    cases url <;> simp
  have hik := ismaKids_writes C (salt := salt) hx hu hp' (by omega) hsalt
  have hlen := ismaWire_length x (url.getD []) salt
  have hisma : isma.length = 18 := by decide
  have hsk := sinf_kid_writes (C := C) (isma_fits ht) (.inl rfl) hik (by rw [wire_ismaKids, hisma]; omega) 0
  rw [wire_ismaKids] at hsk
  have hsl : (ismaSinf t x (url.getD []) salt).length ≤ 67 + (ismaWire x (url.getD []) salt).length := by
    have := sinfWire_length t tAes 1 isma (ismaWire x (url.getD []) salt)
    rw [hisma] at this
    exact this
  have ew : wire (some (⟨fcc 's' 'i' 'n' 'f', .sinf ⟨some t, some ((0, 0), ⟨tAes, 1, some (isma ++ [0])⟩),
      some (vals (ismaKids x (url.map (· ++ [0])) (url.getD []) salt))⟩, ismaSinf t x (url.getD []) salt⟩ : Kid (Bx α))).toList =
      ismaSinf t x (url.getD []) salt := by simp [wire]
  have hw := enc_writes (C := boxes C) (get := get) (put := put) (w := w)
    (x := ⟨enc, reserved, dref, f, (vals ks).map Bx.other,
      some (.sinf ⟨some t, some ((0, 0), ⟨tAes, 1, some (isma ++ [0])⟩), some (vals (ismaKids x (url.map (· ++ [0])) (url.getD []) salt))⟩)⟩)
    (family_writes hf) (s := some ⟨fcc 's' 'i' 'n' 'f', _, ismaSinf t x (url.getD []) salt⟩)
    (fun k hk' => by
      rw [Option.toList_some, List.mem_singleton] at hk'
      subst hk'
      exact hsk)
    hput (vals_others ks).symm rfl hh he (by
      rw [wire_others, ew]
      omega)
  unfold protect
  rw [hp]
  simp only
  unfold encWire at hw
  rw [ew, wire_others] at hw
  have hw' := hw.write
  by_cases h0 : salt = 0
  · subst h0
    exact hw'
  · have e1 : vals (ismaKids (α := α) x (url.map (· ++ [0])) (url.getD []) salt) =
        [.kms (0, 0) (url.map (· ++ [0])), .sfm (0, 0) x, .slt salt] := by simp [ismaKids, h0, vals]
    rw [e1] at hw'
    simp only [transform, addInfo, getSinf, Res.ok_bind, if_pos (show salt ≠ 0 from h0)]
    exact hw'

/-! ## The scheme information -/

theorem as_type {β γ : Type} {p : P β} {f : β → γ} {g : γ → Nat} {n : Nat} {s s' : PS} {v : γ}
    (hp : Ent.P.as f p s = .ok (v, s')) (h : ∀ b, g (f b) = n) : g v = n := by
  unfold Ent.P.as at hp
  rw [P.bind_apply] at hp
  split at hp
  · rename_i b s1 _
    cases hp
    exact h b
  · cases hp
  · cases hp

theorem info_type {C : Class α} {h : Hdr} {s s' : PS} {v : Info α} (hp : (info C).parse h s = .ok (v, s')) :
    v.type = h.type := by
  have hp : (if h.type = tKms then Ent.P.as (fun v => Info.kms v.1 v.2) (Str.ikmsParse h)
    else if h.type = tSfm then Ent.P.as (fun v => Info.sfm v.1 v.2) (ISFM.parse h)
    else if h.type = tSlt then Ent.P.as Info.slt (Rows.isltParse h)
    else Ent.P.as (Info.other h.type) (C.parse h)) s = .ok (v, s') := hp
  split at hp
  · rename_i e; exact as_type (g := Info.type) hp (fun _ => e.symm)
  split at hp
  · rename_i e; exact as_type (g := Info.type) hp (fun _ => e.symm)
  split at hp
  · rename_i e; exact as_type (g := Info.type) hp (fun _ => e.symm)
  · exact as_type (g := Info.type) hp (fun _ => rfl)

theorem reads_type {C : Class α} {t : Nat} {x : Info α} {b : Bytes} (h : Reads (info C) t x b) : x.type = t := by
  obtain ⟨hd, h1, _, h3⟩ := h.2 []
  unfold parseAtom at h3
  split at h3
  · split at h3
    · rename_i h' r _ a s e2
      simp only [Res.ok.injEq, Prod.mk.injEq] at h3
      rw [← h1, ← h3.2.1, ← h3.1]
      exact info_type e2
    · cases h3
    · cases h3
  · cases h3
  · cases h3

theorem find_infos {C : Class α} {ks : List (Kid (Info α))} (h : Readable (info C) ks) {t : Nat} (ht : ¬ Dropped t) :
    (vals (stay ks)).find? (fun x => x.type = t) = first t ks := by
  induction ks with
  | nil => rfl
  | cons k ks ih =>
    obtain ⟨h1, h2⟩ := readable_cons h
    have ih := ih h2
    have e := reads_type h1
    rw [stay_cons]
    unfold first at ih ⊢
    rw [List.find?_cons]
    by_cases hk : k.type = t
    · have : ¬ Tree.isFree k.type := fun hf => ht (hk ▸ isFree_iff.1 hf)
      rw [if_neg this]
      simp [hk, e]
    · simp only [hk, decide_false]
      rw [← ih]
      by_cases hf : Tree.isFree k.type
      · simp [hf]
      · simp [hf, e, hk]

theorem copyStr_text {u : Bytes} (h : Plain u) : copyStr (some (u ++ [0])) = .ok u := by
  unfold copyStr
  simp only [Str.cstr_text h]

/-- A failure to add one of the boxes. -/
theorem addLoop_err {σ : Type} {C : Class α} {add : σ → Nat → α → Res σ} {ks : List (Kid α)} (h : Readable C ks)
    {n size k : Nat} {acc : σ} {e : Err} {r : Bytes} (hf : ks.length < n) (hs : k + (wire ks).length ≤ size)
    (hl : size < 4294967296) (ha : adds add acc ks = .err e) :
    addLoop C add n size acc ⟨wire ks ++ r, k⟩ = .err e := by
  induction ks generalizing n k acc with
  | nil => cases ha
  | cons c ks ih =>
    obtain ⟨n, rfl⟩ : ∃ m, n = m + 1 := ⟨n - 1, by simp at hf; omega⟩
    obtain ⟨⟨h8, hr⟩, h2⟩ := readable_cons h
    rw [wire_cons] at hs ⊢
    simp only [List.length_append, List.length_cons] at hs hf
    obtain ⟨hd, ht, hz, hp'⟩ := hr (wire ks ++ r)
    simp only [addLoop]
    rw [if_pos (by omega), List.append_assoc, hp']
    simp only [ht, hz]
    rw [Nat.mod_eq_of_lt (by omega)]
    simp only [adds] at ha
    by_cases hfr : Tree.isFree c.type
    · rw [if_pos hfr] at ha ⊢
      exact ih h2 (by omega) (by omega) ha
    · rw [if_neg hfr] at ha ⊢
      cases hadd : add acc c.type c.val with
      | ok a =>
        rw [hadd] at ha
        exact ih h2 (by omega) (by omega) ha
      | err e' => rw [hadd] at ha; cases ha; rfl
      | ub => rw [hadd] at ha; cases ha

theorem addAll_err {σ : Type} {C : Class α} {add : σ → Nat → α → Res σ} {ks : List (Kid α)} (h : Readable C ks)
    {size k : Nat} {acc : σ} {e : Err} (hs : k + (wire ks).length ≤ size) (hl : size < 4294967296)
    (ha : adds add acc ks = .err e) (r : Bytes) : addAll C add acc size ⟨wire ks ++ r, k⟩ = .err e := by
  unfold addAll
  rw [P.bind_apply]
  show (match addLoop C add ((wire ks ++ r).length + 1) size acc ⟨wire ks ++ r, k⟩ with | .ok (v, s) => _ | .err e => _ | .ub => _) = _
  rw [addLoop_err h (by have := readable_length h; simp only [List.length_append]; omega) hs hl ha]

/-- Reading a protected entry. -/
theorem unprotect_ok {C : Class α} {ks : List (Kid α)} (hk : Family C ks) (hno : ∀ k ∈ ks, k.type ≠ fcc 's' 'i' 'n' 'f')
    {t enc dref salt : Nat} {reserved w url u : Bytes} {f : φ} {get : P φ} {put : φ → W} {infos : List (Kid (Info α))}
    {vk vx : Nat × Nat} {x : ISFM} (hs : SchemeFits t tAes 1 url) (hi : Readable (info C) infos)
    (hkms : first tKms infos = some (.kms vk (some (u ++ [0])))) (hu : Plain u)
    (hsfm : first tSfm infos = some (.sfm vx x))
    (hslt : (first tSlt infos = none ∧ salt = 0) ∨ first tSlt infos = some (.slt salt))
    (hget : ParsesAt get 16 w f) (hput : Emits (put f) w) (hh : HeadFits reserved dref) (he : GoodType enc) (ht : GoodType t)
    (hl : 65 + w.length + (wire ks).length + url.length + (wire infos).length < 4294967296) (want : Bool) :
    unprotect (encClass (boxes C) get (16 + w.length) put)
      (locked enc reserved dref w ks (sinfWire t tAes 1 url (wire infos))) want =
      .ok ⟨x, if want then some u else none, salt, clear t reserved dref w ks⟩ := by
  obtain ⟨hd, _, hp, _⟩ := parse_of_reads
    (locked_reads (n := 16 + w.length) (put := put) (enc := enc) hk hno hs hi hget hh he hl)
  have b1 := schmBack_scheme tAes 1 url
  have b2 := schmBack_version tAes 1 url
  have hf := others_survives hk hno
  have hw := enc_writes (C := boxes C) (get := get) (put := put) (w := w) (s := none)
    (x := ⟨t, reserved, dref, f, (vals ks).map Bx.other, none⟩) (family_writes hf) (fun k hk' => by cases hk')
    hput (vals_others ks).symm rfl hh ht (by rw [wire_others]; simp [wire] at hl ⊢; omega)
  have e0 : box t (encWire reserved dref w (others ks) none) = clear t reserved dref w ks := by
    unfold encWire clear
    rw [wire_others]
    simp [wire]
  simp only at hw
  rw [e0] at hw
  unfold unprotect
  rw [hp]
  simp only [getScheme, getSinf, b1, b2, Res.ok_bind, Bool.false_eq_true, if_false, getInfo, find_infos hi (show ¬ Dropped tKms by decide),
    find_infos hi (show ¬ Dropped tSfm by decide), find_infos hi (show ¬ Dropped tSlt by decide), hkms, hsfm, ne_eq,
    not_true_eq_false, or_self]
  have e1 : (if want = true then (copyStr (some (u ++ [0]))).bind fun s => .ok (some s) else Res.ok none) =
      .ok (if want = true then some u else none) := by
    cases want
    · rfl
    · rw [copyStr_text hu]; rfl
  rw [e1]
  simp only [Res.ok_bind, untransform, getSinf]
  rw [hw.write]
  rcases hslt with ⟨h1, h2⟩ | h1
  · rw [h1, h2]; rfl
  · rw [h1]; rfl

theorem first_isma (x : ISFM) (p : Option Bytes) (s : Bytes) (salt : Nat) :
    first tKms (ismaKids (α := α) x p s salt) = some (.kms (0, 0) p) ∧
    first tSfm (ismaKids (α := α) x p s salt) = some (.sfm (0, 0) x) ∧
    ((first tSlt (ismaKids (α := α) x p s salt) = none ∧ salt = 0) ∨
      first tSlt (ismaKids (α := α) x p s salt) = some (.slt salt)) := by
  have h1 : (fcc 'i' 'K' 'M' 'S' = fcc 'i' 'S' 'F' 'M') = False := by decide
  have h2 : (fcc 'i' 'K' 'M' 'S' = fcc 'i' 'S' 'L' 'T') = False := by decide
  have h3 : (fcc 'i' 'S' 'F' 'M' = fcc 'i' 'S' 'L' 'T') = False := by decide
  by_cases h : salt = 0
  · simp [first, ismaKids, h, tKms, tSfm, tSlt, h1, h2, h3]
  · simp [first, ismaKids, h, tKms, tSfm, tSlt, h1, h2, h3]

/-! ## Restricted entries -/

theorem rinfWire_length (format scheme version : Nat) (url infos : Bytes) :
    (rinfWire format scheme version url infos).length ≤ 49 + url.length + infos.length := by
  unfold rinfWire
  have := partsWire_length format scheme version url infos
  rw [box_length]; omega

theorem rinf_kid_writes {C : Class α} {format scheme version : Nat} {url : Bytes} {p : Option Bytes}
    (h : SchemeFits format scheme version url) (hp : p = some (url ++ [0]) ∨ (p = none ∧ url = []))
    {ks : List (Kid (Info α))} (hk : WritesAll (info C) ks) (hl : 49 + url.length + (wire ks).length < 4294967296) (f : Nat) :
    Writes (rboxes C) (.rinf ⟨[.frma format, .schm (0, f) ⟨scheme, version, p⟩, .schi (vals ks)], some format,
        some ((0, f), ⟨scheme, version, p⟩), some (vals ks)⟩)
      (rinfWire format scheme version url (wire ks)) := by
  have hle := partsWire_length format scheme version url (wire ks)
  have := rinf_writes (C := C) (x := ⟨[.frma format, .schm (0, f) ⟨scheme, version, p⟩, .schi (vals ks)], some format,
        some ((0, f), ⟨scheme, version, p⟩), some (vals ks)⟩)
    (ks := partKids format scheme version url ((0, f), ⟨scheme, version, p⟩) (vals ks) (wire ks)) rfl
    (partKids_writes h hp hk (by omega)) (by rw [wire_partKids]; omega)
  rw [wire_partKids] at this
  exact ⟨this.size, this.write⟩

/-- A restriction box that was read. -/
def rinfBack (format scheme version : Nat) (url : Bytes) (l : List (Info α)) : Rinf α :=
  ⟨[.frma format, .schm (schmBack scheme version url).1 (schmBack scheme version url).2, .schi l], some format,
    some (schmBack scheme version url), some l⟩

theorem rinf_kid_reads {C : Class α} {format scheme version : Nat} {url : Bytes} (h : SchemeFits format scheme version url)
    {ks : List (Kid (Info α))} (hk : Readable (info C) ks) (hl : 49 + url.length + (wire ks).length < 4294967296) :
    Reads (rboxes C) (fcc 'r' 'i' 'n' 'f') (.rinf (rinfBack format scheme version url (vals (stay ks))))
      (rinfWire format scheme version url (wire ks)) := by
  have hle := partsWire_length format scheme version url (wire ks)
  have := rinf_reads (C := C) (x := rinfBack format scheme version url (vals (stay ks)))
    (ks := partKids format scheme version url (schmBack scheme version url) (vals (stay ks)) (wire ks))
    (partKids_reads h hk (by omega)) (partKids_radd ..) (by rw [wire_partKids]; omega)
  rw [wire_partKids] at this
  exact reads_into Rx.rinf this fun hd ht => if_pos ht

/-- The boxes of an entry as boxes of a restricted one. -/
def rothers (ks : List (Kid α)) : List (Kid (Rx α)) := ks.map fun k => ⟨k.type, .other k.val, k.bytes⟩

theorem wire_rothers (ks : List (Kid α)) : wire (rothers ks) = wire ks := by simp [wire, rothers, List.flatMap_map]

theorem vals_rothers (ks : List (Kid α)) : vals (rothers ks) = (vals ks).map Rx.other := by simp [vals, rothers]

theorem rothers_survives {C : Class α} {ks : List (Kid α)} (h : Family C ks) (hno : ∀ k ∈ ks, k.type ≠ fcc 'r' 'i' 'n' 'f') :
    Family (rboxes C) (rothers ks) := by
  intro k hk
  obtain ⟨j, hj, rfl⟩ := List.mem_map.1 hk
  have hs := (h j hj).1
  refine ⟨⟨hs.size, hs.write, reads_into Rx.other hs.read fun hd ht => if_neg (by rw [ht]; exact hno j hj)⟩, (h j hj).2⟩

theorem restricted_reads {C : Class α} {ks : List (Kid α)} (hk : Readable C ks) {type dref : Nat} {reserved : Bytes} {f : Video}
    (hh : HeadFits reserved dref) (ht : GoodType type) (hf : f.Fits) (hl : 86 + (wire ks).length < 4294967296) :
    Reads (restricted C) type ⟨type, reserved, dref, f, vals (stay ks)⟩
      (box type (headWire reserved dref ++ (f.wire ++ wire ks))) := by
  have e := Video.length hf
  have hz : 8 + (headWire reserved dref ++ (f.wire ++ wire ks)).length = 86 + (wire ks).length := by
    simp only [List.length_append, headWire_length hh]; omega
  refine reads_of ?_ (by rw [hz]; exact hl) ht
  rw [hz]
  have h1 : ParsesAt (Entry.parse C Video.get ⟨86 + (wire ks).length, type, [], 0, 8⟩) 8
      (headWire reserved dref ++ (f.wire ++ wire ks)) ⟨type, reserved, dref, f, vals (stay ks)⟩ := by
    intro r
    have := entry_reads hk (type := type) hh ((Video.parses hf).at 16) (pad := []) (by simp) (size := 86 + (wire ks).length)
      (by simp; omega) hl r
    simp only [List.nil_append] at this
    rw [this, hz]
  refine ParsesAt.bind_nil h1 ?_
  refine parsesAt_bytesRead ?_
  rw [if_neg (by simp only [List.length_append, headWire_length hh]; omega)]
  exact (parses_pure _).at _

theorem resv_reads {C : Class α} {ks : List (Kid α)} (hk : Family C ks) (hno : ∀ k ∈ ks, k.type ≠ fcc 'r' 'i' 'n' 'f')
    {format scheme version dref : Nat} {url reserved : Bytes} {infos : List (Kid (Info α))} {f : Video}
    (hs : SchemeFits format scheme version url) (hi : Readable (info C) infos) (hf : f.Fits) (hh : HeadFits reserved dref)
    (hl : 135 + (wire ks).length + url.length + (wire infos).length < 4294967296) :
    Reads (restricted (rboxes C)) (fcc 'r' 'e' 's' 'v')
      ⟨fcc 'r' 'e' 's' 'v', reserved, dref, f,
        (vals ks).map Rx.other ++ [.rinf (rinfBack format scheme version url (vals (stay infos)))]⟩
      (locked (fcc 'r' 'e' 's' 'v') reserved dref f.wire ks (rinfWire format scheme version url (wire infos))) := by
  have hfam := rothers_survives hk hno
  have hr := rinf_kid_reads (C := C) hs hi (by omega)
  let sk : Kid (Rx α) := ⟨fcc 'r' 'i' 'n' 'f', .rinf (rinfBack format scheme version url (vals (stay infos))),
    rinfWire format scheme version url (wire infos)⟩
  have hall : Readable (rboxes C) (rothers ks ++ [sk]) := by
    intro k hk'
    rcases List.mem_append.1 hk' with h | h
    · exact (hfam k h).1.read
    · rw [List.mem_singleton] at h
      subst h
      exact hr
  have hw : wire (rothers ks ++ [sk]) = wire ks ++ rinfWire format scheme version url (wire infos) := by
    rw [wire_append, wire_rothers]; simp [wire, sk]
  have := restricted_reads hall hh (type := fcc 'r' 'e' 's' 'v') (by unfold GoodType; decide) hf (by
    rw [hw, List.length_append]
    have := rinfWire_length format scheme version url (wire infos)
    omega)
  rw [hw] at this
  have hd : Dropped (fcc 'r' 'i' 'n' 'f') ↔ False := by decide
  have e0 : stay (rothers ks ++ [sk]) = rothers ks ++ [sk] := by
    unfold stay
    rw [List.filter_append]
    have := hfam.stay
    unfold stay at this
    rw [this]
    simp [sk, hd]
  have e1 : vals (rothers ks ++ [sk]) = (vals ks).map Rx.other ++ [sk.val] := by
    unfold vals
    rw [List.map_append]
    have := vals_rothers ks
    unfold vals at this
    rw [this]
    rfl
  rw [e0, e1] at this
  exact this

theorem find_rinf (l : List α) (x : Rinf α) (r : List (Rx α)) :
    (l.map Rx.other ++ .rinf x :: r).find? Rx.isRinf = some (.rinf x) := by
  induction l with
  | nil => rfl
  | cons a l ih =>
    rw [List.map_cons, List.cons_append, List.find?_cons]
    exact ih

theorem find_norinf (l : List α) : (l.map Rx.other).find? Rx.isRinf = none := by
  induction l with
  | nil => rfl
  | cons a l ih =>
    rw [List.map_cons, List.find?_cons]
    exact ih

theorem erase_rinf (l : List α) (x : Rinf α) (r : List (Rx α)) :
    (l.map Rx.other ++ .rinf x :: r).eraseIdx ((l.map Rx.other ++ .rinf x :: r).findIdx Rx.isRinf) = l.map Rx.other ++ r := by
  induction l with
  | nil => simp [List.findIdx_cons, Rx.isRinf]
  | cons a l ih =>
    rw [List.map_cons, List.cons_append, List.findIdx_cons]
    show (Rx.other a :: _).eraseIdx (_ + 1) = _
    rw [List.eraseIdx_cons_succ, ih]
    rfl

theorem resv_of {C : Class α} {D : Class β} {x : Entry Video (Rx α)} {b : Bytes}
    (h : Reads (restricted (rboxes C)) (fcc 'r' 'e' 's' 'v') x b) : resv C D b = .ok x := by
  obtain ⟨hd, h1, h2, r, h3⟩ := parse_of_reads h
  unfold resv
  rw [h3]
  simp only
  rw [if_pos (show hd.type = tResv from h1), h2]

end Verif.Prot
