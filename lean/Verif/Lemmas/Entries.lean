import Verif.Spec.Entries
import Verif.Lemmas.Strings

/-!
# Lemmas on lists of boxes in an entry
-/

namespace Verif.Ent

open Verif.Str
open Verif.Tree (isFree)

variable {α φ σ : Type}

theorem isFree_iff {t : Nat} : isFree t = true ↔ Dropped t := by simp [isFree, Dropped]

theorem wire_cons (k : Kid α) (ks : List (Kid α)) : wire (k :: ks) = k.bytes ++ wire ks := by simp [wire]

theorem readable_cons {C : Class α} {k : Kid α} {ks : List (Kid α)} (h : Readable C (k :: ks)) :
    Reads C k.type k.val k.bytes ∧ Readable C ks :=
  ⟨h k (by simp), fun x hx => h x (by simp [hx])⟩

theorem family_cons {C : Class α} {k : Kid α} {ks : List (Kid α)} (h : Family C (k :: ks)) :
    (Survives C k.type k.val k.bytes ∧ ¬ Dropped k.type) ∧ Family C ks :=
  ⟨h k (by simp), fun x hx => h x (by simp [hx])⟩

theorem Family.readable {C : Class α} {ks : List (Kid α)} (h : Family C ks) : Readable C ks := fun k hk => (h k hk).1.read

theorem Family.stay {C : Class α} {ks : List (Kid α)} (h : Family C ks) : stay ks = ks := by
  apply List.filter_eq_self.2
  intro k hk
  simpa using (h k hk).2

theorem readable_length {C : Class α} {ks : List (Kid α)} (h : Readable C ks) : 8 * ks.length ≤ (wire ks).length := by
  induction ks with
  | nil => simp [wire]
  | cons k ks ih =>
    obtain ⟨h1, h2⟩ := readable_cons h
    have := ih h2
    have := h1.1
    rw [wire_cons]
    simp only [List.length_cons, List.length_append]
    omega

theorem stay_cons (k : Kid α) (ks : List (Kid α)) :
    vals (stay (k :: ks)) = (if isFree k.type then [] else [k.val]) ++ vals (stay ks) := by
  by_cases h : Dropped k.type
  · rw [if_pos (isFree_iff.2 h)]
    simp [vals, stay, h]
  · rw [if_neg (fun h' => h (isFree_iff.1 h'))]
    simp [vals, stay, h]

/-! ## Writing -/

theorem listSize_kids {C : Class α} {ks : List (Kid α)} (h : Family C ks) {n : Nat}
    (hn : n + (wire ks).length < 4294967296) : listSize C n (vals ks) = n + (wire ks).length := by
  induction ks generalizing n with
  | nil => simp [vals, listSize, wire]
  | cons k ks ih =>
    obtain ⟨⟨h1, _⟩, h2⟩ := family_cons h
    rw [wire_cons] at hn ⊢
    simp only [List.length_append] at hn ⊢
    show listSize C ((n + C.size k.val) % 4294967296) (vals ks) = _
    rw [h1.size, Nat.mod_eq_of_lt (by omega), ih h2 (by omega)]
    omega

theorem emits_serList {C : Class α} {ks : List (Kid α)} (h : Family C ks) : Emits (serList C (vals ks)) (wire ks) := by
  induction ks with
  | nil => exact emits_skip
  | cons k ks ih =>
    obtain ⟨⟨h1, _⟩, h2⟩ := family_cons h
    rw [wire_cons]
    exact (emits_nested h1.write h1.size.symm).seq (ih h2)

/-! ## Reading -/

theorem listLoop_kids {C : Class α} {ks : List (Kid α)} (h : Readable C ks) {n size k : Nat} {acc : List α} {pad r : Bytes}
    (hf : ks.length < n) (hp : pad.length < 8) (hs : size = k + (wire ks).length + pad.length)
    (hl : size < 4294967296) :
    listLoop C n size acc ⟨wire ks ++ (pad ++ r), k⟩ = .ok (acc ++ vals (stay ks), ⟨pad ++ r, size⟩) := by
  induction ks generalizing n k acc with
  | nil =>
    obtain ⟨n, rfl⟩ : ∃ m, n = m + 1 := ⟨n - 1, by simp at hf; omega⟩
    simp only [wire, List.flatMap_nil, List.length_nil, List.nil_append, Nat.add_zero] at hs ⊢
    simp only [listLoop]
    by_cases hk : k < size
    · rw [if_pos hk, if_pos (by omega)]
      simp [stay, vals]
    · rw [if_neg hk]
      have : k = size := by omega
      subst this
      simp [stay, vals]
  | cons c ks ih =>
    obtain ⟨n, rfl⟩ : ∃ m, n = m + 1 := ⟨n - 1, by simp at hf; omega⟩
    obtain ⟨⟨h8, hr⟩, h2⟩ := readable_cons h
    rw [wire_cons] at hs ⊢
    simp only [List.length_append, List.length_cons] at hs hf
    obtain ⟨hd, ht, hz, hp'⟩ := hr (wire ks ++ (pad ++ r))
    simp only [listLoop]
    rw [if_pos (by omega), if_neg (by omega), List.append_assoc, hp']
    simp only [ht, hz]
    rw [Nat.mod_eq_of_lt (by omega), ih h2 (by omega) (by omega), stay_cons]
    by_cases hfr : isFree c.type
    · simp [hfr]
    · simp [hfr]

theorem getList_kids {C : Class α} {ks : List (Kid α)} (h : Readable C ks) {size k : Nat} {pad r : Bytes}
    (hp : pad.length < 8) (hs : size = k + (wire ks).length + pad.length) (hl : size < 4294967296) :
    getList C size ⟨wire ks ++ (pad ++ r), k⟩ = .ok (vals (stay ks), ⟨pad ++ r, size⟩) := by
  unfold getList
  rw [listLoop_kids h (by have := readable_length h; simp only [List.length_append]; omega) hp hs hl]
  simp

theorem parsesAt_getList {C : Class α} {ks : List (Kid α)} (h : Family C ks) {size k : Nat}
    (hs : size = k + (wire ks).length) (hl : size < 4294967296) :
    ParsesAt (getList C size) k (wire ks) (vals ks) := by
  intro r
  have := getList_kids h.readable (size := size) (k := k) (pad := []) (r := r) (by simp) (by simpa using hs) hl
  rw [h.stay] at this
  simp only [List.nil_append] at this
  rw [this, hs]

/-- The state after the members are added one by one. -/
def adds (add : σ → Nat → α → Res σ) : σ → List (Kid α) → Res σ
  | s, [] => .ok s
  | s, k :: ks => (if isFree k.type then .ok s else add s k.type k.val).bind fun s' => adds add s' ks

theorem addLoop_kids {C : Class α} {add : σ → Nat → α → Res σ} {ks : List (Kid α)} (h : Readable C ks) {n size k : Nat}
    {acc acc' : σ} {r : Bytes} (hf : ks.length < n) (hs : size = k + (wire ks).length) (hl : size < 4294967296)
    (ha : adds add acc ks = .ok acc') :
    addLoop C add n size acc ⟨wire ks ++ r, k⟩ = .ok (acc', ⟨r, size⟩) := by
  induction ks generalizing n k acc with
  | nil =>
    obtain ⟨n, rfl⟩ : ∃ m, n = m + 1 := ⟨n - 1, by simp at hf; omega⟩
    simp only [wire, List.flatMap_nil, List.length_nil, List.nil_append, Nat.add_zero] at hs ⊢
    subst hs
    simp only [addLoop]
    rw [if_neg (by omega)]
    simp only [adds, Res.ok.injEq] at ha
    rw [ha]
  | cons c ks ih =>
    obtain ⟨n, rfl⟩ : ∃ m, n = m + 1 := ⟨n - 1, by simp at hf; omega⟩
    obtain ⟨⟨h8, hr⟩, h2⟩ := readable_cons h
    rw [wire_cons] at hs ⊢
    simp only [List.length_append, List.length_cons] at hs hf
    obtain ⟨hd, ht, hz, hp'⟩ := hr (wire ks ++ r)
    simp only [addLoop]
    rw [if_pos (by omega), List.append_assoc, hp']
    simp only [ht, hz]
    rw [Nat.mod_eq_of_lt (by omega)]
    simp only [adds] at ha
    by_cases hfr : isFree c.type
    · rw [if_pos hfr] at ha ⊢
      exact ih h2 (by omega) (by omega) ha
    · rw [if_neg hfr] at ha ⊢
      cases hadd : add acc c.type c.val with
      | ok a =>
        rw [hadd] at ha
        exact ih h2 (by omega) (by omega) ha
      | err e => rw [hadd] at ha; cases ha
      | ub => rw [hadd] at ha; cases ha

theorem parsesAt_addAll {C : Class α} {add : σ → Nat → α → Res σ} {ks : List (Kid α)} (h : Readable C ks)
    {init v : σ} {size k : Nat} (hs : size = k + (wire ks).length) (hl : size < 4294967296)
    (ha : adds add init ks = .ok v) : ParsesAt (addAll C add init size) k (wire ks) v := by
  unfold addAll
  refine ParsesAt.bind_nil (a := v) ?_ ?_
  · intro r
    show addLoop C add ((wire ks ++ r).length + 1) size init ⟨wire ks ++ r, k⟩ = _
    rw [addLoop_kids h (by have := readable_length h; simp only [List.length_append]; omega) hs hl ha, hs]
  · refine parsesAt_bytesRead ?_
    rw [if_neg (by omega)]
    exact (parses_pure _).at _

theorem audioLoop_step {C : Class α} {v1 : Bool} {ks : List (Kid α)} (h : Readable C ks) {n size k : Nat} {qt : Qt}
    {acc : List α} {r : Bytes} (hs : k + (wire ks).length ≤ size) (hl : size < 4294967296) :
    audioLoop C v1 (n + ks.length) size qt acc ⟨wire ks ++ r, k⟩ =
      audioLoop C v1 n size qt (acc ++ vals (stay ks)) ⟨r, k + (wire ks).length⟩ := by
  induction ks generalizing k acc with
  | nil => simp [wire, stay, vals]
  | cons c ks ih =>
    obtain ⟨⟨h8, hr⟩, h2⟩ := readable_cons h
    rw [wire_cons] at hs ⊢
    simp only [List.length_append, List.length_cons] at hs ⊢
    obtain ⟨hd, ht, hz, hp'⟩ := hr (wire ks ++ r)
    rw [← Nat.add_assoc]
    simp only [audioLoop]
    rw [if_pos (by omega), List.append_assoc, hp']
    simp only [ht, hz]
    rw [Nat.mod_eq_of_lt (by omega)]
    have hc : (decide (k + c.bytes.length > size) && v1) = false := by
      have : ¬ k + c.bytes.length > size := by omega
      simp [this]
    rw [hc, if_neg (by simp), ih h2 (by omega), stay_cons]
    by_cases hfr : isFree c.type
    · simp [hfr, Nat.add_assoc]
    · simp [hfr, Nat.add_assoc]

theorem audioLoop_kids {C : Class α} {v1 : Bool} {ks : List (Kid α)} (h : Readable C ks) {n size k : Nat} {qt : Qt}
    {acc : List α} {r : Bytes} (hf : ks.length < n) (hs : size = k + (wire ks).length) (hl : size < 4294967296) :
    audioLoop C v1 n size qt acc ⟨wire ks ++ r, k⟩ = .ok ((qt, acc ++ vals (stay ks)), ⟨r, size⟩) := by
  obtain ⟨m, rfl⟩ : ∃ m, n = (m + 1) + ks.length := ⟨n - 1 - ks.length, by omega⟩
  rw [audioLoop_step h (by omega) hl]
  simp only [audioLoop]
  rw [if_neg (by omega), hs]

/-! ## Whole boxes -/

theorem GoodType.uuid {t : Nat} (h : GoodType t) : t ≠ typeUuid := fun e => h.2.2 (by rw [e]; decide)

theorem box_eq (type : Nat) (payload : Bytes) :
    box type payload = (be 4 (8 + payload.length) ++ be 4 type) ++ payload := rfl

theorem box_length (type : Nat) (payload : Bytes) : (box type payload).length = 8 + payload.length := by
  simp [box]; omega

theorem survives_of {C : Class α} {x : α} {type : Nat} {payload : Bytes}
    (hz : C.size x = 8 + payload.length)
    (hser : EmitsFull (C.ser x) ((be 4 (8 + payload.length) ++ be 4 type) ++ payload))
    (hparse : ParsesAt (C.parse ⟨8 + payload.length, type, [], 0, 8⟩) 8 payload x)
    (hs : 8 + payload.length < 4294967296) (ht : GoodType type) : Survives C type x (box type payload) := by
  refine ⟨by rw [box_length, hz], ?_, by rw [box_length]; omega, fun rest => ?_⟩
  · rw [hz]
    exact hser.runW (by simp; omega) hs
  · refine ⟨⟨8 + payload.length, type, [], 0, 8⟩, rfl, by rw [box_length], ?_⟩
    rw [box_eq]
    exact parseAtom_small hparse rfl hs ht.2.1 ht.uuid rest

theorem reads_of {C : Class α} {x : α} {type : Nat} {payload : Bytes}
    (hparse : ParsesAt (C.parse ⟨8 + payload.length, type, [], 0, 8⟩) 8 payload x)
    (hs : 8 + payload.length < 4294967296) (ht : GoodType type) : Reads C type x (box type payload) := by
  refine ⟨by rw [box_length]; omega, fun rest => ⟨⟨8 + payload.length, type, [], 0, 8⟩, rfl, by rw [box_length], ?_⟩⟩
  rw [box_eq]
  exact parseAtom_small hparse rfl hs ht.2.1 ht.uuid rest

theorem parseAtom_err {body : Hdr → P α} {type : Nat} {payload r : Bytes} {e : Err}
    (hb : body ⟨8 + payload.length, type, [], 0, 8⟩ ⟨payload ++ r, 8⟩ = .err e)
    (hs : 8 + payload.length < 4294967296) (ht : GoodType type) : parseAtom body (box type payload ++ r) = .err e := by
  rw [box_eq]
  unfold parseAtom
  rw [List.append_assoc, parseHeader_small hs (by omega) ht.2.1 ht.uuid _ (by simp)]
  simp only [hb]

theorem parseAtom_ub {body : Hdr → P α} {type : Nat} {payload r : Bytes}
    (hb : body ⟨8 + payload.length, type, [], 0, 8⟩ ⟨payload ++ r, 8⟩ = .ub)
    (hs : 8 + payload.length < 4294967296) (ht : GoodType type) : parseAtom body (box type payload ++ r) = .ub := by
  rw [box_eq]
  unfold parseAtom
  rw [List.append_assoc, parseHeader_small hs (by omega) ht.2.1 ht.uuid _ (by simp)]
  simp only [hb]

/-- A box cannot have two to seven bytes. -/
theorem parseHeader_tiny {n : Nat} (h2 : 2 ≤ n) (h7 : n ≤ 7) {r : Bytes} (h4 : 4 ≤ r.length) :
    ∃ e, parseHeader (be 4 n ++ r) = .err e := by
  obtain ⟨a, b, c, d, r', rfl⟩ : ∃ a b c d r', r = a :: b :: c :: d :: r' := by
    match r with
    | [] | [_] | [_, _] | [_, _, _] => simp at h4
    | a :: b :: c :: d :: r' => exact ⟨a, b, c, d, r', rfl⟩
  unfold parseHeader
  rw [rd32_be, Res.ok_bind]
  have e : n % 4294967296 = n := Nat.mod_eq_of_lt (by omega)
  simp only [e]
  rw [if_neg (show ¬ n = 0 by omega)]
  by_cases hc : n ≠ 1 ∧ (n + 4294967292) % 4294967296 > (a :: b :: c :: d :: r').length
  · exact ⟨_, if_pos hc⟩
  rw [if_neg hc, rd32_cons, Res.ok_bind]
  simp only
  split
  · split
    · exact ⟨_, rfl⟩
    · rw [Res.ok_bind]
      simp only
      rw [if_neg (by omega), Res.ok_bind]
      simp only
      exact ⟨_, if_pos (by omega)⟩
  · rw [Res.ok_bind]
    simp only
    rw [if_neg (by omega), Res.ok_bind]
    simp only
    exact ⟨_, if_pos (by omega)⟩

/-- A parser that leaves `pad` unread inside the box: the bytes are skipped. -/
theorem parseAtom_pad {body : Hdr → P α} {type : Nat} {payload pad r : Bytes} {v : α} {m : Nat}
    (hb : body ⟨8 + (payload ++ pad).length, type, [], 0, 8⟩ ⟨payload ++ (pad ++ r), 8⟩ = .ok (v, ⟨pad ++ r, m⟩))
    (hs : 8 + (payload ++ pad).length < 4294967296) (ht : GoodType type) :
    ∃ h : Hdr, h.type = type ∧ h.size = 8 + (payload ++ pad).length ∧
      parseAtom body (box type (payload ++ pad) ++ r) = .ok (v, h, r) := by
  refine ⟨⟨8 + (payload ++ pad).length, type, [], 0, 8⟩, rfl, rfl, ?_⟩
  rw [box_eq]
  unfold parseAtom
  rw [List.append_assoc, parseHeader_small hs (by omega) ht.2.1 ht.uuid _ (by simp)]
  simp only [List.append_assoc payload pad r, hb]
  simp only [Res.ok.injEq, Prod.mk.injEq, true_and]
  simp only [List.length_append, be_length]
  rw [if_neg (by omega)]
  have e : 8 + (payload.length + pad.length) - (4 + 4 + (payload.length + (pad.length + r.length)) - (pad.length + r.length)) =
    pad.length := by omega
  rw [e, List.drop_left]

/-- A parser that agrees with another one on the header that is found. -/
theorem parseAtom_as {β γ : Type} {p : Hdr → P β} {q : Hdr → P γ} {f : β → γ} {inp r : Bytes} {x : β} {h : Hdr}
    (hp : parseAtom p inp = .ok (x, h, r)) (hq : q h = P.as f (p h)) : parseAtom q inp = .ok (f x, h, r) := by
  unfold parseAtom at hp ⊢
  split at hp
  · rename_i h' r' e
    split at hp
    · rename_i a s e2
      simp only [Res.ok.injEq, Prod.mk.injEq] at hp
      obtain ⟨rfl, rfl, rfl⟩ := hp
      have : q h' ⟨r', h'.hlen⟩ = .ok (f a, s) := by
        rw [hq, P.as, P.bind_apply, e2]; rfl
      rw [this]
    · cases hp
    · cases hp
  · cases hp
  · cases hp

/-! ## Entries -/

theorem headWire_length {reserved : Bytes} {dref : Nat} (h : HeadFits reserved dref) :
    (headWire reserved dref).length = 8 := by
  simp [headWire, h.1]

/-- A class whose entries have the common shape, on an entry whose fields can be written and read. -/
theorem entry_survives {C : Class α} {ks : List (Kid α)} (hk : Family C ks) {K : Class (Entry φ α)} {x : Entry φ α}
    {put : φ → W} {w : Bytes} (hx : x.ext = vals ks) (hh : HeadFits x.reserved x.dref) (ht : GoodType x.type)
    (hl : 16 + w.length + (wire ks).length < 4294967296)
    (hsize : K.size x = listSize C (16 + w.length) x.ext)
    (hser : K.ser x = x.serialize C (K.size x) put)
    (hput : Emits (put x.fields) w)
    (hparse : ParsesAt (K.parse ⟨16 + w.length + (wire ks).length, x.type, [], 0, 8⟩) 8
      (headWire x.reserved x.dref ++ (w ++ wire ks)) x) :
    Survives K x.type x (box x.type (headWire x.reserved x.dref ++ (w ++ wire ks))) := by
  have e : 8 + (headWire x.reserved x.dref ++ (w ++ wire ks)).length = 16 + w.length + (wire ks).length := by
    simp only [List.length_append, headWire_length hh]; omega
  have hz : K.size x = 16 + w.length + (wire ks).length := by rw [hsize, hx, listSize_kids hk hl]
  refine survives_of (by rw [e, hz]) ?_ (by rw [e]; exact hparse) (by rw [e]; exact hl) ht
  rw [hser, e, hz]
  unfold Entry.serialize
  rw [if_neg (by have := ht.1; omega), hx]
  have : Emits (serBase (16 + w.length + (wire ks).length) x.type) _ := emits_serBase _ _
  refine this.then ?_
  unfold headWire
  rw [List.append_assoc]
  exact (emits_bytes _).then ((emits_put16 _).then (hput.then (emits_serList hk).thenAssert))

/-- The common reader: boxes that are dropped, and fewer than eight bytes after the last box. -/
theorem entry_reads {C : Class α} {ks : List (Kid α)} (hk : Readable C ks) {get : P φ} {type : Nat} {reserved : Bytes}
    {dref : Nat} {f : φ} {w pad : Bytes} (hh : HeadFits reserved dref) (hget : ParsesAt get 16 w f)
    (hp : pad.length < 8) {size : Nat} (hs : size = 16 + w.length + (wire ks).length + pad.length)
    (hl : size < 4294967296) (r : Bytes) :
    Entry.parse C get ⟨size, type, [], 0, 8⟩ ⟨(headWire reserved dref ++ (w ++ wire ks)) ++ (pad ++ r), 8⟩ =
      .ok (⟨type, reserved, dref, f, vals (stay ks)⟩, ⟨pad ++ r, size⟩) := by
  unfold Entry.parse headWire
  have e : (reserved ++ be 2 dref ++ (w ++ wire ks)) ++ (pad ++ r) =
      reserved ++ (be 2 dref ++ (w ++ (wire ks ++ (pad ++ r)))) := by simp
  rw [e, P.bind_apply, (parses_getBytes hh.1).at 8, ]
  simp only
  rw [P.bind_apply, (parses_get16' hh.2).at _]
  simp only [hh.1, be_length]
  rw [P.bind_apply, hget]
  simp only
  rw [P.bind_apply, getList_kids hk hp (by omega) hl]
  rfl

theorem entry_parse {C : Class α} {ks : List (Kid α)} (hk : Family C ks) {get : P φ} {x : Entry φ α} {w : Bytes}
    (hx : x.ext = vals ks) (hh : HeadFits x.reserved x.dref) (hget : ParsesAt get 16 w x.fields)
    (hl : 16 + w.length + (wire ks).length < 4294967296) :
    ParsesAt (Entry.parse C get ⟨16 + w.length + (wire ks).length, x.type, [], 0, 8⟩) 8
      (headWire x.reserved x.dref ++ (w ++ wire ks)) x := by
  intro r
  have := entry_reads hk.readable (type := x.type) hh hget (pad := []) (by simp) (size := 16 + w.length + (wire ks).length)
    (by simp) hl r
  simp only [List.nil_append] at this
  rw [this, hk.stay, ← hx]
  simp only [List.length_append, headWire_length hh]
  have e : 16 + w.length + (wire ks).length = 8 + (8 + (w.length + (wire ks).length)) := by omega
  rw [e]

/-! ## Fields of the classes -/

theorem Video.emits (f : Video) : Emits f.put f.wire :=
  (emits_bytes _).seq <| (emits_put16 _).seq <| (emits_put16 _).seq <| (emits_put32 _).seq <| (emits_put32 _).seq <|
    (emits_put32 _).seq <| (emits_put16 _).seq <| (emits_put8 _).seq <| (emits_bytes _).seq <| (emits_put16 _).seq <|
    emits_put16 _

theorem Video.parses {f : Video} (h : f.Fits) : Parses Video.get f.wire f :=
  (parses_getBytes h.reserved2).bind <| (parses_get16' h.width).bind <| (parses_get16' h.height).bind <|
    (parses_get32' h.reserved4).bind <| (parses_get32' h.reserved5).bind <| (parses_get32' h.reserved6).bind <|
    (parses_get16' h.reserved7).bind <| (parses_get8' h.nameLength).bind <| (parses_getBytes h.name31).bind <|
    (parses_get16' h.reserved8).bind <| (parses_get16' h.reserved9).bind_nil <| parses_pure _

theorem Video.length {f : Video} (h : f.Fits) : f.wire.length = 70 := by
  simp [Video.wire, h.reserved2, h.name31]

theorem Audio.emits (f : Audio) : Emits f.put f.wire :=
  (emits_bytes _).seq <| (emits_put16 _).seq <| (emits_put16 _).seq <| (emits_put32 _).seq <| (emits_put16 _).seq <|
    emits_put16 _

theorem Audio.parses {f : Audio} (h : f.Fits) : Parses Audio.get f.wire f :=
  (parses_getBytes h.reserved2).bind <| (parses_get16' h.reserved3).bind <| (parses_get16' h.reserved4).bind <|
    (parses_get32' h.reserved5).bind <| (parses_get16' h.timeScale).bind <| (parses_get16' h.reserved6).bind_nil <|
    parses_pure _

theorem Audio.length {f : Audio} (h : f.Fits) : f.wire.length = 20 := by
  simp [Audio.wire, h.reserved2]

theorem Qt.parses {q : Qt} (h : q.Fits) : Parses Qt.get q.wire q :=
  (parses_get32' h.1).bind <| (parses_get32' h.2.1).bind <| (parses_get32' h.2.2.1).bind <|
    (parses_get32' h.2.2.2).bind_nil <| parses_pure _

theorem Qt.length (q : Qt) : q.wire.length = 16 := by simp [Qt.wire]

theorem parses_readString {s : Bytes} (h : Str.Text s) (hl : s.length ≤ 1023) : Parses readString (s ++ [0]) (s ++ [0]) := by
  intro r k
  unfold readString
  simp only [List.append_assoc, List.singleton_append]
  rw [splitNul_text h]
  simp only
  rw [if_neg (by simp; omega)]

theorem parsesAt_readField {h : Hdr} {s : Bytes} {k : Nat} (ht : Str.Text s) (hl : s.length ≤ 1023) (hk : k < h.size) :
    ParsesAt (readField h) k (s ++ [0]) (some (s ++ [0])) := by
  unfold readField
  refine parsesAt_bytesRead ?_
  rw [if_pos (by omega)]
  exact Parses.at (Parses.bind_nil (f := fun b => pure (some b)) (parses_readString ht hl) (parses_pure _)) _

theorem emits_putField {a : Option Bytes} {n : Nat} (ha : Short n a) (hl : (a.getD []).length + 1 < 4294967296) :
    Emits (putField (inMemory a)) (strWire a) := by
  cases a with
  | none => exact emits_put8 0
  | some s =>
    have ht : Str.Text s := ha.1
    have hl' : s.length + 1 < 4294967296 := hl
    simp only [putField, inMemory, Option.map_some, cstr_text ht]
    exact emits_putStr hl'

theorem fieldSize_short {a : Option Bytes} {m n : Nat} (ha : Short m a) (hl : n + (a.getD []).length < 4294967296) :
    fieldSize n (inMemory a) = n + (a.getD []).length := by
  cases a with
  | none => rfl
  | some s =>
    have ht : Str.Text s := ha.1
    simp only [Option.getD_some] at hl ⊢
    simp only [fieldSize, inMemory, Option.map_some, cstr_text ht, Option.getD_some]
    rw [Nat.mod_eq_of_lt (show s.length < _ by omega), Nat.mod_eq_of_lt hl]

theorem strWire_length (a : Option Bytes) : (strWire a).length = (a.getD []).length + 1 := by simp [strWire]

theorem parsesAt_short {h : Hdr} {a : Option Bytes} {k : Nat} (ha : Short 1023 a) (hk : k < h.size) :
    ParsesAt (readField h) k (strWire a) (some (strWire a)) := parsesAt_readField ha.1 ha.2 hk

/-- The common writer and reader, when what is read is not what was written. -/
theorem entry_rewrites {C : Class α} {ks : List (Kid α)} (hk : Family C ks) {K : Class (Entry φ α)} {x : Entry φ α}
    {put : φ → W} {w : Bytes} {get : Hdr → P φ} {f : φ} (hx : x.ext = vals ks) (hh : HeadFits x.reserved x.dref)
    (ht : GoodType x.type) (hl : 16 + w.length + (wire ks).length < 4294967296)
    (hsize : K.size x = listSize C (16 + w.length) x.ext)
    (hser : K.ser x = x.serialize C (K.size x) put)
    (hput : Emits (put x.fields) w)
    (hparse : K.parse = fun h => Entry.parse C (get h) h)
    (hget : ParsesAt (get ⟨16 + w.length + (wire ks).length, x.type, [], 0, 8⟩) 16 w f) :
    runW (K.size x) (K.ser x) = .ok (box x.type (headWire x.reserved x.dref ++ (w ++ wire ks))) ∧
    K.size x = (box x.type (headWire x.reserved x.dref ++ (w ++ wire ks))).length ∧
      Reads K x.type { x with fields := f } (box x.type (headWire x.reserved x.dref ++ (w ++ wire ks))) := by
  have e : 8 + (headWire x.reserved x.dref ++ (w ++ wire ks)).length = 16 + w.length + (wire ks).length := by
    simp only [List.length_append, headWire_length hh]; omega
  have hz : K.size x = 16 + w.length + (wire ks).length := by rw [hsize, hx, listSize_kids hk hl]
  refine ⟨?_, by rw [box_length, e, hz], reads_of ?_ (by rw [e]; exact hl) ht⟩
  · rw [box_eq, e]
    refine EmitsFull.runW ?_ (by simp only [List.length_append, be_length, headWire_length hh]; omega) (by omega)
    rw [hser, hz]
    unfold Entry.serialize
    rw [if_neg (by have := ht.1; omega), hx]
    have : Emits (serBase (16 + w.length + (wire ks).length) x.type) _ := emits_serBase _ _
    refine this.then ?_
    unfold headWire
    rw [List.append_assoc]
    exact (emits_bytes _).then ((emits_put16 _).then (hput.then (emits_serList hk).thenAssert))
  · rw [e, hparse]
    exact entry_parse (x := { x with fields := f }) hk hx hh hget hl

/-! ## Members added one by one -/

theorem adds_enc (a : List α) (o : Option α) (ks : List (Kid α)) :
    adds encAdd (a, o) ks = .ok (a ++ vals ((stay ks).filter fun k => k.type ≠ typeSinf),
      (((stay ks).filter fun k => k.type = typeSinf).getLast?.map (·.val)).or o) := by
  induction ks generalizing a o with
  | nil => simp [adds, stay, vals]
  | cons k ks ih =>
    simp only [adds]
    by_cases hd : Dropped k.type
    · rw [if_pos (isFree_iff.2 hd)]
      show adds encAdd (a, o) ks = _
      rw [ih]
      simp [stay, hd]
    · rw [if_neg (fun h => hd (isFree_iff.1 h))]
      unfold encAdd
      by_cases hs : k.type = typeSinf
      · rw [if_pos hs]
        show adds encAdd (a, some k.val) ks = _
        rw [ih]
        have e : stay (k :: ks) = k :: stay ks := by simp [stay, hd]
        rw [e]
        simp only [List.filter_cons, hs, decide_true, if_true, ne_eq, not_true_eq_false, decide_false]
        simp only [List.getLast?_cons, Option.map_some]
        cases ((stay ks).filter fun k => decide (k.type = typeSinf)).getLast? <;> simp
      · rw [if_neg hs]
        show adds encAdd (a ++ [k.val], o) ks = _
        rw [ih]
        have e : stay (k :: ks) = k :: stay ks := by simp [stay, hd]
        rw [e]
        simp [hs, vals]

theorem audio_head {C : Class α} {reserved : Bytes} {dref : Nat} {f : Audio} (hh : HeadFits reserved dref) (hf : f.Fits)
    {size type : Nat} {more r : Bytes} :
    (audio C).parse ⟨size, type, [], 0, 8⟩ ⟨headWire reserved dref ++ (f.wire ++ more) ++ r, 8⟩ =
      match audioLoop C (f.reserved2[1]? == some 1) ((more ++ r).length + 1) size ⟨0, 0, 0, 0⟩ [] ⟨more ++ r, 36⟩ with
      | .ok ((qt, ext), s) => .ok (⟨type, reserved, dref, (f, qt), ext⟩, s)
      | .err e => .err e
      | .ub => .ub := by
  show (getBytes 6 >>= _) _ = _
  have e : headWire reserved dref ++ (f.wire ++ more) ++ r = reserved ++ (be 2 dref ++ (f.wire ++ (more ++ r))) := by
    simp [headWire]
  rw [e, P.bind_apply, (parses_getBytes hh.1).at 8]
  simp only
  rw [P.bind_apply, (parses_get16' hh.2).at _]
  simp only [hh.1, be_length]
  rw [P.bind_apply, (Audio.parses hf).at _]
  simp only [Audio.length hf]
  rw [P.bind_apply]
  rw [show audioList C (f.reserved2[1]? == some 1) size ⟨more ++ r, 8 + 6 + 2 + 20⟩ = audioLoop C
    (f.reserved2[1]? == some 1) ((more ++ r).length + 1) size ⟨0, 0, 0, 0⟩ [] ⟨more ++ r, 36⟩ from rfl]
  cases audioLoop C (f.reserved2[1]? == some 1) ((more ++ r).length + 1) size ⟨0, 0, 0, 0⟩ [] ⟨more ++ r, 36⟩ with
  | ok v => obtain ⟨⟨a, b⟩, s⟩ := v; rfl
  | err e => rfl
  | ub => rfl

theorem generic_reads {C : Class α} {reserved : Bytes} {dref type : Nat} {f : Bytes} (hh : HeadFits reserved dref)
    (hl : 16 + f.length < 4294967296) :
    ParsesAt ((generic C).parse ⟨16 + f.length, type, [], 0, 8⟩) 8 (headWire reserved dref ++ f)
      ⟨type, reserved, dref, f, []⟩ := by
  show ParsesAt (getBytes 6 >>= _) _ _ _
  rw [headWire, List.append_assoc]
  refine ((parses_getBytes hh.1).at _).bind (((parses_get16' hh.2).at _).bind ?_)
  refine parsesAt_bytesLeft (n := f.length) (by simp [hh.1]) hl ?_
  refine ParsesAt.bind_nil ((parses_getBytes rfl).at _) ?_
  have hk : Family C ([] : List (Kid α)) := by intro k hk; cases hk
  refine ParsesAt.bind_nil (x := []) (a := []) (parsesAt_getList (ks := []) hk (by simp [hh.1, wire]) hl) ?_
  refine parsesAt_bytesRead ?_
  rw [if_neg (by simp [hh.1])]
  exact (parses_pure _).at _

/-- Entries with a protection box. -/
theorem enc_survives {C : Class α} {ks : List (Kid α)} (hk : Family C ks) {s : Option (Kid α)} (hs : Family C s.toList)
    (hno : ∀ k ∈ ks, k.type ≠ fcc 's' 'i' 'n' 'f') (hyes : ∀ k ∈ s, k.type = fcc 's' 'i' 'n' 'f') {x : EncEntry φ α}
    {K : Class (EncEntry φ α)} {get : P φ} {put : φ → W} {w : Bytes} {n : Nat}
    (hK : K = ⟨EncEntry.parse C get, fun x => x.calcSize C n, fun x => x.serialize C n put⟩) (hn : n = 16 + w.length)
    (hput : Emits (put x.fields) w) (hget : ParsesAt get 16 w x.fields)
    (hx : x.ext = vals ks) (hy : x.sinf = s.map (·.val)) (hh : HeadFits x.reserved x.dref) (ht : GoodType x.type)
    (hl : n + (wire ks).length + (wire s.toList).length < 4294967296) :
    Survives K x.type x (box x.type (encWire x.reserved x.dref w ks s)) := by
  subst hK hn
  have hall : Family C (ks ++ s.toList) := by
    intro k hk'
    rcases List.mem_append.1 hk' with h | h
    · exact hk k h
    · exact hs k h
  have hw : wire (ks ++ s.toList) = wire ks ++ wire s.toList := by simp [wire]
  have hz : x.calcSize C (16 + w.length) = 16 + w.length + (wire ks).length + (wire s.toList).length := by
    unfold EncEntry.calcSize
    rw [hx, hy]
    cases s with
    | none =>
      rw [Option.map_none]
      simp only
      rw [listSize_kids hk (by omega)]
      simp [wire]
    | some k =>
      rw [Option.map_some]
      simp only
      have e : wire (some k).toList = k.bytes := by simp [wire]
      rw [e] at hl ⊢
      rw [(hs k (by simp)).1.size, Nat.mod_eq_of_lt (by omega), listSize_kids hk (by omega)]
      omega
  have e : 8 + (encWire x.reserved x.dref w ks s).length = 16 + w.length + (wire ks).length + (wire s.toList).length := by
    simp only [encWire, List.length_append, headWire_length hh]; omega
  refine survives_of (by rw [e]; exact hz) ?_ ?_ (by rw [e]; exact hl) ht
  · show EmitsFull (x.serialize C (16 + w.length) put) _
    unfold EncEntry.serialize
    rw [if_neg (by have := ht.1; omega), hz, e]
    refine (emits_serBase _ _).then ?_
    unfold encWire headWire
    rw [List.append_assoc, hx]
    refine (emits_bytes _).then ((emits_put16 _).then (hput.then ((emits_serList hk).then ?_)))
    refine Emits.thenAssert ?_
    rw [hy]
    cases s with
    | none => exact emits_skip
    | some k =>
      have := (hs k (by simp)).1
      have e : wire (some k).toList = k.bytes := by simp [wire]
      rw [e]
      exact emits_nested this.write this.size.symm
  · rw [e]
    show ParsesAt (EncEntry.parse C get _) _ _ _
    unfold EncEntry.parse encWire headWire
    rw [List.append_assoc, ← hw]
    refine ((parses_getBytes hh.1).at _).bind (((parses_get16' hh.2).at _).bind
      (ParsesAt.bind (by simpa [hh.1] using hget) ?_))
    have hno : ∀ k ∈ ks, k.type ≠ typeSinf := hno
    have hyes : ∀ k ∈ s, k.type = typeSinf := hyes
    have ha := adds_enc [] none (ks ++ s.toList)
    rw [hall.stay] at ha
    have e1 : (ks ++ s.toList).filter (fun k => decide (k.type ≠ typeSinf)) = ks := by
      rw [List.filter_append, List.filter_eq_self.2 (fun k hk' => by simpa using hno k hk'),
        List.filter_eq_nil_iff.2 (fun k hk' => by simpa using hyes k (by simpa using hk')), List.append_nil]
    have e2 : (ks ++ s.toList).filter (fun k => decide (k.type = typeSinf)) = s.toList := by
      rw [List.filter_append, List.filter_eq_nil_iff.2 (fun k hk' => by simpa using hno k hk'),
        List.filter_eq_self.2 (fun k hk' => by simpa using hyes k (by simpa using hk')), List.nil_append]
    rw [e1, e2, List.nil_append] at ha
    refine ParsesAt.bind_nil (parsesAt_addAll hall.readable
      (by rw [hw]; simp only [List.length_append, hh.1, be_length]; omega) hl ha) ?_
    obtain ⟨t, r, d, f, ext, sinf⟩ := x
    simp only at hx hy
    subst hx hy
    cases s <;> exact (parses_pure _).at _

end Verif.Ent
