import Verif.Spec.Mebx
import Verif.Lemmas.Protect
import Verif.Props.C70

/-!
# Lemmas on boxed metadata
-/

namespace Verif.Meb

open Verif.Ent
open Verif.Tree (isFree)
open Verif.Prot (header_box)

variable {α : Type}

/-! ## Boxes of a key -/

theorem parsesAt_bytesToRead {β : Type} {h : Hdr} {f : Nat → P β} {k n : Nat} {bs : Bytes} {v : β} (hk : h.size = k + n)
    (hf : ParsesAt (f n) k bs v) : ParsesAt (bytesToRead h >>= f) k bs v := by
  intro r
  rw [P.bind_apply]
  have e : bytesToRead h ⟨bs ++ r, k⟩ = .ok (n, ⟨bs ++ r, k⟩) := by
    show (if h.size < k then P.fail .badData else pure (h.size - k) : P Nat) ⟨bs ++ r, k⟩ = _
    rw [if_neg (by omega), hk, Nat.add_sub_cancel_left]
    rfl
  rw [e]
  exact hf r

theorem keyd_survives (C : Class α) {x : Keyd} (h1 : x.ns < 4294967296) (h2 : four x.ns → x.value.length = 4)
    (hl : 12 + x.value.length < 4294967296) :
    Survives (sub C) (fcc 'k' 'e' 'y' 'd') (.keyd x) (box (fcc 'k' 'e' 'y' 'd') (be 4 x.ns ++ x.value)) := by
  have hp : (be 4 x.ns ++ x.value).length = 4 + x.value.length := by simp
  have hz : x.size = 8 + (be 4 x.ns ++ x.value).length := by
    rw [hp]; unfold Keyd.size; omega
  refine survives_of hz ?_ ?_ (by rw [hp]; omega) (by unfold GoodType; decide)
  · show EmitsFull x.serialize _
    unfold Keyd.serialize
    rw [hz, if_neg (fun h => h.1 (h2 h.2))]
    exact (emits_serBase _ _).then ((emits_put32 _).then (emits_bytes _).thenAssert)
  · have e : ∀ hd : Hdr, hd.type = fcc 'k' 'e' 'y' 'd' → (sub C).parse hd = P.as .keyd (Keyd.parse hd) := fun hd h => if_pos h
    rw [e _ rfl]
    unfold P.as Keyd.parse
    refine ParsesAt.bind_nil (a := x) (((parses_get32' h1).at _).bind ?_) ((parses_pure _).at _)
    refine parsesAt_bytesToRead (n := x.value.length) (by simp only [List.length_append, be_length]; omega) ?_
    exact ((parses_getBytes rfl).at _).bind_nil ((parses_pure _).at _)

theorem loca_survives (C : Class α) {t : Bytes} (h0 : t ≠ []) (ht : ∀ b ∈ t, b ≠ 0) (hl : 9 + t.length < 4294967296) :
    Survives (sub C) (fcc 'l' 'o' 'c' 'a') (.loca (some (t ++ [0]))) (box (fcc 'l' 'o' 'c' 'a') (t ++ [0])) := by
  have hp : (t ++ [0]).length = t.length + 1 := by simp
  have hc : Str.cstrPtr (some (t ++ [0])) = some t := Str.cstr_text ht []
  have hn : t.length > 0 := List.length_pos_iff.2 h0
  have hz : locaSize (some (t ++ [0])) = 8 + (t ++ [0]).length := by
    unfold locaSize
    rw [hc]
    simp only
    rw [if_pos hn, Str.strSize_eq (by omega), hp]
    omega
  refine survives_of hz ?_ ?_ (by rw [hp]; omega) (by unfold GoodType; decide)
  · show EmitsFull (locaSerialize _) _
    unfold locaSerialize
    rw [hz, hc]
    exact (emits_serBase _ _).then (Str.emits_putStr (by omega)).thenAssert
  · have e : ∀ hd : Hdr, hd.type = fcc 'l' 'o' 'c' 'a' → (sub C).parse hd = P.as .loca (locaParse hd) := by
      intro hd h
      show (if hd.type = typeKeyd then _ else if hd.type = typeLoca then _ else _) = _
      rw [h, if_neg (by decide), if_pos (show fcc 'l' 'o' 'c' 'a' = typeLoca from rfl)]
    rw [e _ rfl]
    unfold P.as locaParse
    refine ParsesAt.bind_nil (a := some (t ++ [0])) ?_ ((parses_pure _).at _)
    refine parsesAt_bytesToRead (n := (t ++ [0]).length) rfl ?_
    rw [if_pos (by rw [hp]; omega)]
    exact ((parses_getBytes rfl).at _).bind_nil ((parses_pure _).at _)

theorem setu_survives (C : Class α) {d : Bytes} (hl : 8 + d.length < 4294967296) :
    Survives (sub C) (fcc 's' 'e' 't' 'u') (.setu d) (box (fcc 's' 'e' 't' 'u') d) := by
  have hz : setuSize d = 8 + d.length := Nat.mod_eq_of_lt hl
  refine survives_of hz ?_ ?_ hl (by unfold GoodType; decide)
  · show EmitsFull (setuSerialize _) _
    unfold setuSerialize
    rw [hz]
    exact (emits_serBase _ _).then (emits_bytes _).thenAssert
  · have e : ∀ hd : Hdr, hd.type = fcc 's' 'e' 't' 'u' → (sub C).parse hd = P.as .setu (setuParse hd) := by
      intro hd h
      show (if hd.type = typeKeyd then _ else if hd.type = typeLoca then _ else if hd.type = typeSetu then _ else _) = _
      rw [h, if_neg (by decide), if_neg (by decide), if_pos (show fcc 's' 'e' 't' 'u' = typeSetu from rfl)]
    rw [e _ rfl]
    unfold P.as setuParse
    refine ParsesAt.bind_nil (a := d) ?_ ((parses_pure _).at _)
    exact parsesAt_bytesToRead rfl ((parses_getBytes rfl).at _)

/-- A box of another class. -/
theorem other_survives {C : Class α} {t : Nat} {x : α} {b : Bytes} (h : Survives C t x b)
    (ht : t ≠ fcc 'k' 'e' 'y' 'd' ∧ t ≠ fcc 'l' 'o' 'c' 'a' ∧ t ≠ fcc 's' 'e' 't' 'u') :
    Survives (sub C) t (.other x) b := by
  refine ⟨h.size, h.write, Prot.reads_into Sub.other h.read fun hd e => ?_⟩
  show (if hd.type = typeKeyd then _ else if hd.type = typeLoca then _ else if hd.type = typeSetu then _ else _) = _
  rw [e, if_neg (show ¬ t = typeKeyd from ht.1), if_neg (show ¬ t = typeLoca from ht.2.1),
    if_neg (show ¬ t = typeSetu from ht.2.2)]

/-! ## Adding -/

theorem findSome_filterMap {β γ : Type} (f : β → Option γ) (l : List β) : l.findSome? f = (l.filterMap f).head? := by
  induction l with
  | nil => rfl
  | cons a l ih =>
    rw [List.findSome?_cons, List.filterMap_cons]
    cases f a with
    | none => exact ih
    | some b => rfl

theorem isSome_find {β γ : Type} (f : β → Option γ) (l : List β) :
    (l.findSome? f).isSome = decide (1 ≤ (l.filterMap f).length) := by
  rw [findSome_filterMap]
  cases l.filterMap f <;> simp

theorem once_append {a b : List (Sub α)} (h : Once (a ++ b)) : Once a := by
  simp only [Once, List.filterMap_append, List.length_append] at h ⊢
  omega

theorem once_snoc (acc : List (Sub α)) (c : Sub α) : Once (acc ++ [c]) ↔
    (acc.filterMap Sub.keyd?).length + ([c].filterMap Sub.keyd?).length ≤ 1 ∧
      (acc.filterMap Sub.loca?).length + ([c].filterMap Sub.loca?).length ≤ 1 ∧
        (acc.filterMap Sub.setu?).length + ([c].filterMap Sub.setu?).length ≤ 1 := by
  simp only [Once, List.filterMap_append, List.length_append]

theorem subAdd_eq {acc : List (Sub α)} (h : Once acc) (t : Nat) (c : Sub α) :
    subAdd acc t c = if Once (acc ++ [c]) then .ok (acc ++ [c]) else .err .badData := by
  have ho := once_snoc acc c
  unfold Once at h
  unfold subAdd
  cases c with
  | keyd x =>
    have ho : _ ↔ _ + 1 ≤ 1 ∧ _ + 0 ≤ 1 ∧ _ + 0 ≤ 1 := ho
    simp only [isSome_find, decide_eq_true_eq]
    by_cases hc : 1 ≤ (acc.filterMap Sub.keyd?).length
    · rw [if_pos hc, if_neg (fun h' => by have := ho.1 h'; omega)]
    · rw [if_neg hc, if_pos (ho.2 (by omega))]
  | loca x =>
    have ho : _ ↔ _ + 0 ≤ 1 ∧ _ + 1 ≤ 1 ∧ _ + 0 ≤ 1 := ho
    simp only [isSome_find, decide_eq_true_eq]
    by_cases hc : 1 ≤ (acc.filterMap Sub.loca?).length
    · rw [if_pos hc, if_neg (fun h' => by have := ho.1 h'; omega)]
    · rw [if_neg hc, if_pos (ho.2 (by omega))]
  | setu x =>
    have ho : _ ↔ _ + 0 ≤ 1 ∧ _ + 0 ≤ 1 ∧ _ + 1 ≤ 1 := ho
    simp only [isSome_find, decide_eq_true_eq]
    by_cases hc : 1 ≤ (acc.filterMap Sub.setu?).length
    · rw [if_pos hc, if_neg (fun h' => by have := ho.1 h'; omega)]
    · rw [if_neg hc, if_pos (ho.2 (by omega))]
  | other x =>
    have ho : _ ↔ _ + 0 ≤ 1 ∧ _ + 0 ≤ 1 ∧ _ + 0 ≤ 1 := ho
    rw [if_pos (ho.2 (by omega))]

theorem adds_sub {acc : List (Sub α)} (h : Once acc) (ks : List (Kid (Sub α))) :
    adds subAdd acc ks = if Once (acc ++ vals (stay ks)) then .ok (acc ++ vals (stay ks)) else .err .badData := by
  induction ks generalizing acc with
  | nil => simp [adds, stay, vals, h]
  | cons k ks ih =>
    simp only [adds]
    rw [stay_cons]
    by_cases hf : isFree k.type
    · rw [if_pos hf, if_pos hf, List.nil_append]
      exact ih h
    · rw [if_neg hf, if_neg hf, subAdd_eq h, ← List.append_assoc]
      by_cases hc : Once (acc ++ [k.val])
      · rw [if_pos hc]
        exact ih hc
      · rw [if_neg hc, if_neg (fun h' => hc (once_append h'))]
        rfl

/-- A member that is refused. -/
theorem addLoop_err {β σ : Type} {C : Class β} {add : σ → Nat → β → Res σ} {ks : List (Kid β)} (h : Readable C ks)
    {n size k : Nat} {acc : σ} {r : Bytes} {e : Err} (hf : ks.length < n) (hs : size = k + (wire ks).length)
    (hl : size < 4294967296) (ha : adds add acc ks = .err e) :
    addLoop C add n size acc ⟨wire ks ++ r, k⟩ = .err e := by
  induction ks generalizing n k acc with
  | nil => simp [adds] at ha
  | cons c ks ih =>
    obtain ⟨n, rfl⟩ : ∃ m, n = m + 1 := ⟨n - 1, by simp at hf; omega⟩
    obtain ⟨⟨h8, hr⟩, h2⟩ := readable_cons h
    rw [wire_cons] at hs ⊢
    simp only [List.length_append, List.length_cons] at hs hf
    obtain ⟨hd, ht, hz, hp'⟩ := hr (wire ks ++ r)
    simp only [addLoop]
    rw [if_pos (by omega), List.append_assoc, hp']
    simp only [ht, hz]
    rw [Nat.mod_eq_of_lt (by omega)]
    simp only [adds] at ha
    by_cases hfr : isFree c.type
    · rw [if_pos hfr] at ha ⊢
      exact ih h2 (by omega) (by omega) ha
    · rw [if_neg hfr] at ha ⊢
      cases hadd : add acc c.type c.val with
      | ok a =>
        rw [hadd] at ha
        exact ih h2 (by omega) (by omega) ha
      | err e' =>
        rw [hadd] at ha
        simpa [Res.bind] using ha
      | ub => rw [hadd] at ha; cases ha

theorem key_survives {C : Class α} {ks : List (Kid (Sub α))} (h : Family (sub C) ks) (h1 : Once (vals ks)) {id : Nat}
    (hi : GoodType id) (hl : 8 + (wire ks).length < 4294967296) :
    Survives (key C) id ⟨id, vals ks⟩ (box id (wire ks)) := by
  have hz : listSize (sub C) 8 (vals ks) = 8 + (wire ks).length := listSize_kids h hl
  refine survives_of hz ?_ ?_ hl hi
  · show EmitsFull (if id = 0 then W.bad else _) _
    rw [if_neg (by have := hi.1; omega)]
    show EmitsFull (serBase (listSize (sub C) 8 (vals ks)) id ;; _) _
    rw [hz]
    exact (emits_serBase _ _).then (emits_serList h).thenAssert
  · refine ParsesAt.bind_nil (parsesAt_addAll h.readable rfl hl ?_) ((parses_pure _).at _)
    have := adds_sub (acc := []) (by simp [Once]) ks
    rw [List.nil_append, h.stay, if_pos h1] at this
    exact this

theorem key_reads {C : Class α} {ks : List (Kid (Sub α))} (h : Readable (sub C) ks) (h1 : Once (vals (stay ks))) {id : Nat}
    (hi : GoodType id) (hl : 8 + (wire ks).length < 4294967296) :
    Reads (key C) id ⟨id, vals (stay ks)⟩ (box id (wire ks)) := by
  refine reads_of ?_ hl hi
  refine ParsesAt.bind_nil (parsesAt_addAll h rfl hl ?_) ((parses_pure _).at _)
  have := adds_sub (acc := []) (by simp [Once]) ks
  rwa [List.nil_append, if_pos h1] at this

theorem key_twice {C : Class α} {ks : List (Kid (Sub α))} (h : Readable (sub C) ks) (h1 : ¬ Once (vals (stay ks))) {id : Nat}
    (hi : GoodType id) (hl : 8 + (wire ks).length < 4294967296) (rest : Bytes) :
    parseAtom (key C).parse (box id (wire ks) ++ rest) = .err .badData := by
  refine parseAtom_err ?_ hl hi
  have := adds_sub (acc := []) (by simp [Once]) ks
  rw [List.nil_append, if_neg h1] at this
  show ((addList (sub C) subAdd [] _ >>= _) >>= _) _ = _
  rw [P.bind_apply, P.bind_apply]
  unfold addList
  simp only
  rw [addLoop_err h (by have := readable_length h; simp only [List.length_append]; omega) rfl hl this]

/-! ## The table -/

theorem addKey_eq (l : List (Key α)) (k : Key α) :
    addKey l k = if k.id ∈ ids l then .err .badParam else .ok (l ++ [k]) := by
  unfold addKey ids
  by_cases h : k.id ∈ l.map (·.id)
  · rw [if_pos h, if_pos]
    rw [List.find?_isSome]
    obtain ⟨x, h1, h2⟩ := List.mem_map.1 h
    exact ⟨x, h1, by simpa using h2⟩
  · rw [if_neg h, if_neg]
    rw [List.find?_isSome]
    rintro ⟨x, h1, h2⟩
    exact h (List.mem_map.2 ⟨x, h1, by simpa using h2⟩)

theorem nodup_append_left {β : Type} {a b : List β} (h : (a ++ b).Nodup) : a.Nodup := (List.nodup_append.1 h).1

theorem tableLoop_kids {C : Class α} {ks : List (Kid (Key α))} (h : Readable (key C) ks) {n size k : Nat}
    {acc : List (Key α)} (hn : (ids acc).Nodup) {r : Bytes} (hf : ks.length < n) (hs : size = k + (wire ks).length)
    (hl : size < 4294967296) :
    tableLoop C n size acc ⟨wire ks ++ r, k⟩ =
      if (ids (acc ++ vals ks)).Nodup then .ok (acc ++ vals ks, ⟨r, size⟩) else .err .badParam := by
  induction ks generalizing n k acc with
  | nil =>
    obtain ⟨n, rfl⟩ : ∃ m, n = m + 1 := ⟨n - 1, by simp at hf; omega⟩
    simp only [wire, List.flatMap_nil, List.length_nil, List.nil_append, Nat.add_zero, vals, List.map_nil,
      List.append_nil] at hs ⊢
    subst hs
    simp only [tableLoop]
    rw [if_neg (by omega), if_pos hn]
  | cons c ks ih =>
    obtain ⟨n, rfl⟩ : ∃ m, n = m + 1 := ⟨n - 1, by simp at hf; omega⟩
    obtain ⟨⟨h8, hr⟩, h2⟩ := readable_cons h
    rw [wire_cons] at hs ⊢
    simp only [List.length_append, List.length_cons] at hs hf
    obtain ⟨hd, ht, hz, hp'⟩ := hr (wire ks ++ r)
    simp only [tableLoop]
    rw [if_pos (by omega), List.append_assoc, hp']
    simp only [hz]
    rw [Nat.mod_eq_of_lt (by omega), if_neg (by omega), addKey_eq]
    have ev : acc ++ vals (c :: ks) = (acc ++ [c.val]) ++ vals ks := by simp [vals]
    rw [ev]
    by_cases hm : c.val.id ∈ ids acc
    · rw [if_pos hm, if_neg]
      intro hnd
      unfold ids at hnd hm
      rw [List.map_append] at hnd
      have := nodup_append_left hnd
      rw [List.map_append, List.nodup_append] at this
      exact this.2.2 _ hm _ (by simp) rfl
    · rw [if_neg hm]
      simp only
      refine ih h2 ?_ (by omega) (by omega)
      unfold ids at hn hm ⊢
      rw [List.map_append, List.nodup_append]
      refine ⟨hn, by simp, ?_⟩
      intro a ha b hb hab
      simp only [List.map_cons, List.map_nil, List.mem_singleton] at hb
      subst hb hab
      exact hm ha

theorem table_parse {C : Class α} {ks : List (Kid (Key α))} (h : Readable (key C) ks) {t : Nat}
    (hl : 8 + (wire ks).length < 4294967296) (r : Bytes) :
    (table C).parse ⟨8 + (wire ks).length, t, [], 0, 8⟩ ⟨wire ks ++ r, 8⟩ =
      if (ids (vals ks)).Nodup then .ok (vals ks, ⟨r, 8 + (wire ks).length⟩) else .err .badParam := by
  let p : P (List (Key α)) := fun s => tableLoop C (s.rest.length + 1) (8 + (wire ks).length) [] s
  show (p >>= _) _ = _
  rw [P.bind_apply]
  have e : p ⟨wire ks ++ r, 8⟩ = _ := tableLoop_kids h (acc := []) (r := r) (n := (wire ks ++ r).length + 1) (k := 8)
    (by simp [ids]) (by have := readable_length h; simp only [List.length_append]; omega) rfl hl
  rw [e, List.nil_append]
  by_cases hn : (ids (vals ks)).Nodup
  · rw [if_pos hn]
    show (if 8 + (wire ks).length ≠ 8 + (wire ks).length then P.fail .badData else pure (vals ks) : P _) _ = _
    rw [if_neg (by simp)]
    rfl
  · rw [if_neg hn]

theorem writesAll_of {C : Class α} {ks : List (Kid α)} (h : ∀ k ∈ ks, Survives C k.type k.val k.bytes) :
    Prot.WritesAll C ks := fun k hk => Prot.survives_writes (h k hk)

theorem table_survives {C : Class α} {ks : List (Kid (Key α))} (h : ∀ k ∈ ks, Survives (key C) k.type k.val k.bytes)
    (hn : (ids (vals ks)).Nodup) (hl : 8 + (wire ks).length < 4294967296) :
    Survives (boxes C) (fcc 'k' 'e' 'y' 's') (.keys (vals ks)) (box (fcc 'k' 'e' 'y' 's') (wire ks)) := by
  have hz : listSize (key C) 8 (vals ks) = 8 + (wire ks).length := Prot.listSize_writes (writesAll_of h) hl
  refine survives_of hz ?_ ?_ hl (by unfold GoodType; decide)
  · show EmitsFull (serBase (listSize (key C) 8 (vals ks)) typeKeys ;; _) _
    rw [hz]
    exact (emits_serBase _ _).then (Prot.emits_writes (writesAll_of h)).thenAssert
  · have e : ∀ hd : Hdr, hd.type = fcc 'k' 'e' 'y' 's' → (boxes C).parse hd = P.as .keys ((table C).parse hd) :=
      fun hd h => if_pos h
    rw [e _ rfl]
    unfold P.as
    refine ParsesAt.bind_nil (a := vals ks) ?_ ((parses_pure _).at _)
    intro r
    rw [table_parse (fun k hk => (h k hk).read) hl, if_pos hn]

/-! ## Rows -/

def Row.kids (x : Row) : List (Kid (Sub α)) :=
  ⟨fcc 'k' 'e' 'y' 'd', .keyd ⟨x.ns, x.value⟩, box (fcc 'k' 'e' 'y' 'd') (be 4 x.ns ++ x.value)⟩ ::
    ((x.locale.toList.map fun t => ⟨fcc 'l' 'o' 'c' 'a', .loca (some (t ++ [0])), box (fcc 'l' 'o' 'c' 'a') (t ++ [0])⟩) ++
      x.setup.toList.map fun d => ⟨fcc 's' 'e' 't' 'u', .setu d, box (fcc 's' 'e' 't' 'u') d⟩)

theorem Row.vals_kids (x : Row) : vals (x.kids (α := α)) = x.key.subs := by
  obtain ⟨id, ns, value, locale, setup⟩ := x
  cases locale <;> cases setup <;> rfl

theorem Row.wire_kids (x : Row) : x.wire = box x.id (Ent.wire (x.kids (α := α))) := by
  unfold Row.wire
  congr 1
  unfold Ent.wire Row.kids
  rw [List.flatMap_cons, List.flatMap_append, List.flatMap_map, List.flatMap_map]

theorem Row.once (x : Row) : Once (x.key (α := α)).subs := by
  obtain ⟨id, ns, value, locale, setup⟩ := x
  cases locale <;> cases setup <;> first
    | exact ⟨Nat.le_refl 1, Nat.zero_le 1, Nat.zero_le 1⟩
    | exact ⟨Nat.le_refl 1, Nat.le_refl 1, Nat.zero_le 1⟩
    | exact ⟨Nat.le_refl 1, Nat.zero_le 1, Nat.le_refl 1⟩
    | exact ⟨Nat.le_refl 1, Nat.le_refl 1, Nat.le_refl 1⟩

theorem Row.length (x : Row) : x.wire.length = 20 + x.value.length + (x.locale.elim 0 fun t => 9 + t.length) +
    x.setup.elim 0 fun d => 8 + d.length := by
  obtain ⟨id, ns, value, locale, setup⟩ := x
  unfold Row.wire
  cases locale <;> cases setup <;> simp [box] <;> omega

theorem Row.family (C : Class α) {x : Row} (h : x.Fits) (hl : x.wire.length < 4294967296) : Family (sub C) x.kids := by
  rw [Row.length] at hl
  intro k hk
  simp only [Row.kids, List.mem_cons, List.mem_append, List.mem_map, Option.mem_toList] at hk
  rcases hk with rfl | ⟨t, ht, rfl⟩ | ⟨d, hd, rfl⟩
  · exact ⟨keyd_survives C h.ns h.value (by simp only; omega), show ¬ Dropped (fcc 'k' 'e' 'y' 'd') by decide⟩
  · rw [show x.locale = some t from ht] at hl
    simp only [Option.elim_some] at hl
    exact ⟨loca_survives C (h.locale t ht).1 (h.locale t ht).2 (by omega), show ¬ Dropped (fcc 'l' 'o' 'c' 'a') by decide⟩
  · rw [show x.setup = some d from hd] at hl
    simp only [Option.elim_some] at hl
    exact ⟨setu_survives C (by omega), show ¬ Dropped (fcc 's' 'e' 't' 'u') by decide⟩

theorem Row.survives (C : Class α) {x : Row} (h : x.Fits) (hl : x.wire.length < 4294967296) :
    Survives (Meb.key C) x.id x.key x.wire := by
  have hw := Row.wire_kids (α := α) x
  have := key_survives (Row.family C h hl) (by rw [Row.vals_kids]; exact x.once) h.id
    (by rw [hw, box_length] at hl; exact hl)
  rw [Row.vals_kids, ← hw] at this
  exact this

/-- The rows as boxes of the table. -/
def rowKids (xs : List Row) : List (Kid (Key α)) := xs.map fun x => ⟨x.id, x.key, x.wire⟩

theorem wire_rowKids (xs : List Row) : Ent.wire (rowKids (α := α) xs) = rowsWire xs := by
  simp [Ent.wire, rowKids, rowsWire, List.flatMap_map]

theorem vals_rowKids (xs : List Row) : vals (rowKids (α := α) xs) = xs.map Row.key := by simp [vals, rowKids]

theorem ids_rows (xs : List Row) : ids (xs.map (Row.key (α := α))) = xs.map (·.id) := by
  simp [ids, Row.key]

theorem row_length_le {xs : List Row} {x : Row} (h : x ∈ xs) : x.wire.length ≤ (rowsWire xs).length := by
  induction xs with
  | nil => simp at h
  | cons y ys ih =>
    simp only [rowsWire, List.flatMap_cons, List.length_append] at ih ⊢
    rcases List.mem_cons.1 h with rfl | h
    · omega
    · have := ih h; omega

theorem rows_survive (C : Class α) {xs : List Row} (hf : ∀ x ∈ xs, x.Fits) (hn : (xs.map (·.id)).Nodup)
    (hl : 8 + (rowsWire xs).length < 4294967296) :
    Survives (boxes C) (fcc 'k' 'e' 'y' 's') (.keys (xs.map Row.key)) (box (fcc 'k' 'e' 'y' 's') (rowsWire xs)) := by
  rw [← vals_rowKids, ← wire_rowKids (α := α)]
  refine table_survives ?_ (by rw [vals_rowKids, ids_rows]; exact hn) (by rw [wire_rowKids]; exact hl)
  intro k hk
  obtain ⟨x, hx, rfl⟩ := List.mem_map.1 hk
  exact Row.survives C (hf x hx) (by have := row_length_le hx; omega)

theorem entry_ok (C : Class α) {xs : List Row} {dref : Nat} (hd : dref < 65536) (hf : ∀ x ∈ xs, x.Fits)
    (hn : (xs.map (·.id)).Nodup) (hl : 24 + (rowsWire xs).length < 4294967296) :
    Survives (mebx (boxes C)) (fcc 'm' 'e' 'b' 'x') (entryOf dref xs) (entryWire dref xs) := by
  have h := rows_survive C hf hn (by omega)
  let k : Kid (Bx α) := ⟨fcc 'k' 'e' 'y' 's', .keys (xs.map Row.key), box (fcc 'k' 'e' 'y' 's') (rowsWire xs)⟩
  have hk : Family (boxes C) [k] := by
    intro c hc
    rw [List.mem_singleton] at hc
    subst hc
    exact ⟨h, show ¬ Dropped (fcc 'k' 'e' 'y' 's') by decide⟩
  have hw : Ent.wire [k] = box (fcc 'k' 'e' 'y' 's') (rowsWire xs) := by simp [Ent.wire, k]
  have := c70_mebx hk (x := entryOf dref xs) rfl ⟨rfl, hd⟩ (by show GoodType (fcc _ _ _ _); unfold GoodType; decide) (by simp [k])
    (by simp [k, entryOf]) (by rw [hw, box_length]; omega)
  rw [hw] at this
  exact this

theorem entryWire_length (dref : Nat) (xs : List Row) : (entryWire dref xs).length = 24 + (rowsWire xs).length := by
  unfold entryWire
  simp only [box_length, List.length_append, headWire, be_length, List.length_cons, List.length_nil]
  omega

theorem readEntry_ok (C : Class α) {xs : List Row} {dref : Nat} (hd : dref < 65536) (hf : ∀ x ∈ xs, x.Fits)
    (hn : (xs.map (·.id)).Nodup) (hl : 24 + (rowsWire xs).length < 4294967296) :
    readEntry C (entryWire dref xs) = .ok (entryOf dref xs) := by
  have h := (entry_ok C hd hf hn hl).read
  obtain ⟨hdr, h1, h2, h3⟩ := h.2 []
  have hl' := entryWire_length dref xs
  have hh := header_box (type := fcc 'm' 'e' 'b' 'x')
    (payload := headWire [0, 0, 0, 0, 0, 0] dref ++ box (fcc 'k' 'e' 'y' 's') (rowsWire xs))
    (by unfold entryWire at hl'; rw [box_length] at hl'; omega) (by unfold GoodType; decide) []
  unfold readEntry
  rw [List.append_nil] at h3 hh
  show (match parseHeader (entryWire dref xs) with | _ => _) = _
  rw [show parseHeader (entryWire dref xs) = _ from hh]
  simp only
  rw [if_pos (by decide), h3]

theorem keyTable_entryOf (dref : Nat) (xs : List Row) : keyTable (entryOf (α := α) dref xs) = some (xs.map Row.key) := rfl

theorem Row.find_keyd (x : Row) : (x.key (α := α)).subs.findSome? Sub.keyd? = some ⟨x.ns, x.value⟩ := rfl

theorem Row.find_loca (x : Row) : (x.key (α := α)).subs.findSome? Sub.loca? = x.locale.map fun t => some (t ++ [0]) := by
  obtain ⟨id, ns, value, locale, setup⟩ := x
  cases locale <;> cases setup <;> rfl

theorem Row.find_setu (x : Row) : (x.key (α := α)).subs.findSome? Sub.setu? = x.setup := by
  obtain ⟨id, ns, value, locale, setup⟩ := x
  cases locale <;> cases setup <;> rfl

/-! ## Requests -/

theorem search_some {used : List Nat} {k d n : Nat} (h1 : d ≤ n) (h2 : n < d + k) (h3 : n ∉ used)
    (h4 : ∀ m, d ≤ m → m < n → m ∈ used) : search used k d = some n := by
  induction k generalizing d with
  | zero => omega
  | succ k ih =>
    simp only [search]
    by_cases hd : d ∈ used
    · rw [if_pos hd]
      have : d ≠ n := fun e => h3 (e ▸ hd)
      exact ih (by omega) (by omega) fun m hm => h4 m (by omega)
    · rw [if_neg hd]
      by_cases e : d = n
      · rw [e]
      · exact absurd (h4 d (Nat.le_refl _) (by omega)) hd

theorem search_none {used : List Nat} {k d : Nat} (h : ∀ m, d ≤ m → m < d + k → m ∈ used) : search used k d = none := by
  induction k generalizing d with
  | zero => rfl
  | succ k ih =>
    simp only [search]
    rw [if_pos (h d (Nat.le_refl _) (by omega))]
    exact ih fun m h1 h2 => h m (by omega) (by omega)

theorem four_iff {ns : Nat} : four ns ↔ FourCC ns := Iff.rfl

theorem code_be {n : Nat} (h : n < 4294967296) (h7 : Seven n) :
    code (UInt8.ofNat (n / 16777216)) (UInt8.ofNat (n / 65536)) (UInt8.ofNat (n / 256)) (UInt8.ofNat n) = n := by
  unfold code
  obtain ⟨h1, h2, h3⟩ := h7
  simp only [ofNat_toNat_mod]
  rw [if_neg (by omega), if_neg (by omega), if_neg (by omega)]
  omega

theorem keyValue_ok {r : Request} (h : r.Fine) (hd : r.desired < 4294967296)
    (h7 : FourCC r.ns → r.value = none ∨ Seven r.desired) : keyValue r.desired r.ns r.value = .ok r.content := by
  by_cases h4 : FourCC r.ns
  · have hc := h.four h4
    rcases h7 h4 with hv | hv
    · rw [hc, hv, be4]
      simp only [keyValue]
      rw [if_pos (four_iff.2 h4)]
    · cases hr : r.value with
      | none =>
        rw [hc, be4]
        simp only [keyValue]
        rw [if_pos (four_iff.2 h4)]
      | some v =>
        have e : r.content = v := by simp [Request.content, hr]
        rw [e] at hc ⊢
        rw [hc, be4]
        simp only [keyValue]
        rw [if_pos (four_iff.2 h4), code_be hd hv, if_neg (by simp)]
  · obtain ⟨v, hv, h0⟩ := h.other h4
    have e : r.content = v := by simp [Request.content, hv]
    rw [e, hv]
    simp only [keyValue]
    rw [if_neg (fun h => h4 (four_iff.1 h))]

theorem newKeyd_ok {r : Request} (h : r.Fine) : newKeyd r.ns r.content = .ok ⟨r.ns, r.content⟩ := by
  unfold newKeyd
  by_cases h4 : FourCC r.ns
  · have hl : r.content.length = 4 := by rw [h.four h4, be_length]
    rw [if_neg (fun h => h.1 hl), if_neg (by omega)]
  · obtain ⟨v, hv, h0⟩ := h.other h4
    have e : r.content = v := by simp [Request.content, hv]
    rw [if_neg (fun h => h4 h.2), e, if_neg (by have := List.length_pos_iff.2 h0; omega)]

theorem newSetu_ok {r : Request} (h : r.Fine) :
    newSetu (α := α) r.ns r.setup = .ok (r.setup.toList.map Sub.setu) := by
  cases hs : r.setup with
  | none => rfl
  | some d =>
    obtain ⟨h0, hu⟩ := h.setup d hs
    simp only [newSetu]
    rw [if_neg (show ¬ r.ns = uiso from hu), if_neg (by have := List.length_pos_iff.2 h0; omega)]
    rfl

theorem add_ok {r : Request} (h : r.Fine) (h7 : FourCC r.ns → r.value = none ∨ Seven r.desired) {dref : Nat}
    {xs : List Row} {n : Nat} (hf : Free (xs.map (·.id)) r.desired n) :
    r.add (entryOf (α := α) dref xs) = .ok (n, entryOf dref (xs ++ [r.row n])) := by
  have hd : r.desired < 4294967295 := Nat.lt_of_le_of_lt hf.from_ hf.below
  unfold Request.add addMeta
  rw [keyTable_entryOf]
  simp only
  rw [if_neg (by omega), keyValue_ok h (by omega) h7, Res.ok_bind, newKeyd_ok h, Res.ok_bind]
  have hi : (xs.map (Row.key (α := α))).map (·.id) = xs.map (·.id) := ids_rows xs
  rw [hi, search_some hf.from_ (by have := hf.below; omega) hf.unused hf.first]
  simp only
  rw [newSetu_ok h, Res.ok_bind, addKey_eq, if_neg (by rw [ids_rows]; exact hf.unused), Res.ok_bind]
  simp [setTable, entryOf, Row.key, Request.row]

theorem add_full {r : Request} (h : r.Fine) (h7 : FourCC r.ns → r.value = none ∨ Seven r.desired) {dref : Nat}
    {xs : List Row} (hd : r.desired < 4294967295) (hf : ∀ m, r.desired ≤ m → m < 4294967295 → m ∈ xs.map (·.id)) :
    r.add (entryOf (α := α) dref xs) = .err .badData := by
  unfold Request.add addMeta
  rw [keyTable_entryOf]
  simp only
  rw [if_neg (by omega), keyValue_ok h (by omega) h7, Res.ok_bind, newKeyd_ok h, Res.ok_bind]
  have hi : (xs.map (Row.key (α := α))).map (·.id) = xs.map (·.id) := ids_rows xs
  rw [hi, search_none fun m h1 h2 => hf m h1 (by omega)]

/-! ## Samples -/

theorem split4 {m : Nat} (h : m < 4294967296) :
    m / 16777216 % 256 * 16777216 + m / 65536 % 256 * 65536 + m / 256 % 256 * 256 + m % 256 = m := by omega

theorem demuxLoop_box {key n : Nat} {x : Nat × Bytes} (h1 : x.1 < 4294967296) (h2 : 8 + x.2.length < 4294967296)
    (r : Bytes) (out : Option Bytes) :
    demuxLoop key (n + 1) (box x.1 x.2 ++ r) out = demuxLoop key n r (if x.1 = key then some x.2 else out) := by
  obtain ⟨t, b⟩ := x
  simp only at h1 h2 ⊢
  have e : (box t b ++ r).drop (8 + b.length) = r := by
    rw [← box_length t b, List.drop_left]
  have e1 : box t b ++ r = [UInt8.ofNat ((8 + b.length) / 16777216), UInt8.ofNat ((8 + b.length) / 65536),
      UInt8.ofNat ((8 + b.length) / 256), UInt8.ofNat (8 + b.length), UInt8.ofNat (t / 16777216), UInt8.ofNat (t / 65536),
      UInt8.ofNat (t / 256), UInt8.ofNat t] ++ (b ++ r) := by
    rw [box_eq, be4, be4]; simp
  rw [e1] at e ⊢
  generalize hm : 8 + b.length = m at e h2 ⊢
  have l1 := split4 h2
  have l2 := split4 h1
  simp only [List.cons_append, List.nil_append] at e ⊢
  simp only [demuxLoop, ofNat_toNat_mod, l1, l2]
  rw [if_neg (by omega), e]
  by_cases hk : t = key
  · have l3 : (m + 4294967296 - 8) % 4294967296 = b.length := by omega
    rw [if_pos hk, if_pos hk, l3, if_pos (by simp), List.take_left]
  · rw [if_neg hk, if_neg hk]

theorem demuxLoop_sample {key n : Nat} {xs : List (Nat × Bytes)} (h : SampleFits xs) (r : Bytes) (out : Option Bytes) :
    demuxLoop key (n + xs.length) (sampleWire xs ++ r) out = demuxLoop key n r ((lastOf key xs).or out) := by
  induction xs generalizing out with
  | nil => simp [sampleWire, lastOf]
  | cons x xs ih =>
    have hx := h x (by simp)
    rw [show n + (x :: xs).length = (n + xs.length) + 1 from rfl, sampleWire, List.flatMap_cons, List.append_assoc,
      demuxLoop_box hx.1 hx.2, show List.flatMap (fun x : Nat × Bytes => box x.1 x.2) xs = sampleWire xs from rfl,
      ih fun y hy => h y (by simp [hy])]
    congr 1
    unfold lastOf
    rw [List.filter_cons]
    by_cases hk : x.1 = key
    · simp only [hk, decide_true, if_true]
      cases hg : xs.filter (fun x => decide (x.1 = key)) with
      | nil => simp
      | cons y ys =>
        rw [List.getLast?_cons_cons]
        cases hq : (y :: ys).getLast? with
        | none => simp at hq
        | some z => rfl
    · simp [hk]

theorem sampleWire_length (xs : List (Nat × Bytes)) : xs.length ≤ (sampleWire xs).length := by
  induction xs with
  | nil => simp
  | cons x xs ih =>
    simp only [sampleWire, List.flatMap_cons, List.length_append, box_length, List.length_cons] at ih ⊢
    omega

theorem demux_sample {key : Nat} {xs : List (Nat × Bytes)} (h : SampleFits xs) (r : Bytes) (out : Option Bytes) :
    ∃ n, r.length < n ∧ demux key (sampleWire xs ++ r) out = demuxLoop key n r ((lastOf key xs).or out) := by
  have hl := sampleWire_length xs
  refine ⟨(sampleWire xs).length - xs.length + r.length + 1, by omega, ?_⟩
  rw [← demuxLoop_sample h]
  unfold demux
  congr 1
  simp only [List.length_append]
  omega

/-! ## Entries that cannot be written -/

/-- What is not a result. -/
inductive Flaw where
  | err (e : Err)
  | ub

def Flaw.res {β : Type} : Flaw → Res β
  | .err e => .err e
  | .ub => .ub

theorem Flaw.bind {β γ : Type} (o : Flaw) (f : β → Res γ) : (o.res : Res β).bind f = o.res := by cases o <;> rfl

/-- The writer ends with `o` when there are `n` bytes left. -/
def Stops (w : W) (n : Nat) (o : Flaw) : Prop := ∀ s : WS, s.out.length + n ≤ s.size → s.size < 4294967296 → w s = o.res

theorem Stops.after {a b : W} {x : Bytes} {n : Nat} {o : Flaw} (ha : Emits a x) (hb : Stops b n o) :
    Stops (a ;; b) (x.length + n) o := by
  intro s h1 h2
  unfold W.seq
  rw [ha s (by omega) (by omega), if_pos (by omega)]
  exact hb _ (by simp only [List.length_append]; omega) h2

theorem Stops.left {a b : W} {n : Nat} {o : Flaw} (ha : Stops a n o) : Stops (a ;; b) n o := by
  intro s h1 h2
  unfold W.seq
  rw [ha s h1 h2]
  exact Flaw.bind _ _

theorem Stops.nested {w : W} {size : Nat} {o : Flaw} (h : runW size w = o.res) : Stops (nested size w) size o := by
  intro s h1 h2
  unfold Verif.nested
  rw [Nat.mod_eq_of_lt (by omega), if_neg (by omega), h]
  exact Flaw.bind _ _

theorem Stops.run {w : W} {n size : Nat} {o : Flaw} (h : Stops w n o) (h1 : n ≤ size) (h2 : size < 4294967296) :
    runW size w = o.res := by
  unfold runW
  rw [h ⟨[], size⟩ (by simpa using h1) h2]
  cases o <;> rfl

theorem Stops.mono {w : W} {n m : Nat} {o : Flaw} (h : Stops w n o) (hm : n ≤ m) : Stops w m o :=
  fun s h1 h2 => h s (by omega) h2

theorem serList_append (C : Class α) (a b : List α) (s : WS) : serList C (a ++ b) s = (serList C a ;; serList C b) s := by
  induction a generalizing s with
  | nil => rfl
  | cons x a ih =>
    show ((Verif.nested (C.size x) (C.ser x)) s).bind (serList C (a ++ b)) =
      (((Verif.nested (C.size x) (C.ser x)) s).bind (serList C a)).bind (serList C b)
    cases (Verif.nested (C.size x) (C.ser x)) s with
    | ok t => exact ih t
    | err e => rfl
    | ub => rfl

theorem listSize_sum (C : Class α) (n : Nat) (l : List α) (h : n + (l.map C.size).sum < 4294967296) :
    listSize C n l = n + (l.map C.size).sum := by
  induction l generalizing n with
  | nil => simp [listSize]
  | cons x l ih =>
    simp only [List.map_cons, List.sum_cons] at h ⊢
    show listSize C ((n + C.size x) % 4294967296) l = _
    rw [Nat.mod_eq_of_lt (by omega), ih _ (by omega)]
    omega

/-- A member that cannot be written, after some that can. -/
theorem stops_list {C : Class α} {ks : List (Kid α)} (h : Prot.WritesAll C ks) {x : α} {o : Flaw}
    (hx : runW (C.size x) (C.ser x) = o.res) (l : List α) :
    Stops (serList C (vals ks ++ x :: l)) ((wire ks).length + C.size x) o := by
  intro s h1 h2
  rw [serList_append]
  exact Stops.after (Prot.emits_writes h) (Stops.left (Stops.nested hx)) s h1 h2

theorem Row.subs_sizes (C : Class α) {x : Row} (hn : ∀ t ∈ x.locale, ∀ b ∈ t, b ≠ 0) (hl : x.bytes < 4294967296) :
    (x.key.subs.map (sub C).size).sum = x.bytes - 8 := by
  obtain ⟨id, ns, value, locale, setup⟩ := x
  have hk : 20 + value.length < 4294967296 → (sub C).size (.keyd ⟨ns, value⟩) = 12 + value.length := by
    intro h
    show (8 + 4 + value.length) % 4294967296 = _
    omega
  have hc : ∀ t ∈ locale, (sub C).size (.loca (some (t ++ [0]))) = if t = [] then 8 else 9 + t.length := by
    intro t ht
    show locaSize _ = _
    unfold locaSize
    rw [show Str.cstrPtr (some (t ++ [0])) = some t from Str.cstr_text (hn t ht) []]
    simp only
    have ht : locale = some t := ht
    subst ht
    by_cases h0 : t = []
    · subst h0
      rfl
    · have : t.length > 0 := List.length_pos_iff.2 h0
      rw [if_pos this, if_neg h0]
      simp only [Row.bytes, Option.elim_some, if_neg h0] at hl
      rw [Str.strSize_eq (by omega)]
      omega
  have hd : ∀ d ∈ setup, (sub C).size (.setu d) = 8 + d.length := by
    intro d hd
    have hd : setup = some d := hd
    subst hd
    simp only [Row.bytes, Option.elim_some] at hl
    show (8 + d.length) % 4294967296 = _
    omega
  cases locale with
  | none =>
    cases setup with
    | none =>
      simp only [Row.bytes, Option.elim_none] at hl ⊢
      simp only [Row.key, Option.toList_none, List.map_nil, List.append_nil, List.map_cons, List.sum_cons, List.sum_nil]
      rw [hk (by omega)]
      omega
    | some d =>
      have hd := hd d rfl
      simp only [Row.bytes, Option.elim_none, Option.elim_some] at hl ⊢
      simp only [Row.key, Option.toList_none, Option.toList_some, List.map_nil, List.nil_append, List.map_cons, List.sum_cons,
        List.sum_nil]
      rw [hk (by omega), hd]
      omega
  | some t =>
    have hc := hc t rfl
    cases setup with
    | none =>
      simp only [Row.bytes, Option.elim_none, Option.elim_some] at hl ⊢
      simp only [Row.key, Option.toList_none, Option.toList_some, List.map_nil, List.append_nil, List.map_cons, List.sum_cons,
        List.sum_nil]
      rw [hk (by omega), hc]
      omega
    | some d =>
      have hd := hd d rfl
      simp only [Row.bytes, Option.elim_some] at hl ⊢
      simp only [Row.key, Option.toList_some, List.map_nil, List.cons_append, List.nil_append, List.map_cons, List.sum_cons,
        List.sum_nil]
      rw [hk (by omega), hc, hd]
      omega

theorem Row.bytes_ge (x : Row) : 20 ≤ x.bytes := by unfold Row.bytes; omega

theorem Row.size (C : Class α) {x : Row} (hn : ∀ t ∈ x.locale, ∀ b ∈ t, b ≠ 0) (hl : x.bytes < 4294967296) :
    (Meb.key C).size x.key = x.bytes := by
  have h := Row.subs_sizes C hn hl
  have := x.bytes_ge
  show listSize (sub C) 8 x.key.subs = _
  rw [listSize_sum _ _ _ (by omega)]
  omega

theorem Row.Fits.bytes {x : Row} (h : x.Fits) : x.bytes = x.wire.length := by
  rw [Row.length]
  unfold Row.bytes
  cases hl : x.locale with
  | none => rfl
  | some t =>
    simp only [Option.elim_some]
    rw [if_neg (h.locale t hl).1]

theorem sizes_rows (C : Class α) {xs : List Row} (hn : ∀ x ∈ xs, ∀ t ∈ x.locale, ∀ b ∈ t, b ≠ 0)
    (hl : (xs.map Row.bytes).sum < 4294967296) :
    ((xs.map Row.key).map (Meb.key C).size).sum = (xs.map Row.bytes).sum := by
  induction xs with
  | nil => rfl
  | cons x xs ih =>
    simp only [List.map_cons, List.sum_cons] at hl ⊢
    rw [Row.size C (hn x (by simp)) (by omega), ih (fun y hy => hn y (by simp [hy])) (by omega)]

theorem rowsWire_sum {xs : List Row} (h : ∀ x ∈ xs, x.Fits) : (rowsWire xs).length = (xs.map Row.bytes).sum := by
  induction xs with
  | nil => rfl
  | cons x xs ih =>
    have := ih fun y hy => h y (by simp [hy])
    simp only [rowsWire, List.flatMap_cons, List.length_append, List.map_cons, List.sum_cons] at this ⊢
    rw [this, (h x (by simp)).bytes]

/-- An entry with a key that cannot be written. -/
theorem getHandle_stops (C : Class α) {a b : List Row} {x : Row} {dref : Nat} {o : Flaw} (ha : ∀ r ∈ a, r.Fits)
    (hn : ∀ r ∈ a ++ x :: b, ∀ t ∈ r.locale, ∀ b ∈ t, b ≠ 0) (hl : 24 + ((a ++ x :: b).map Row.bytes).sum < 4294967296)
    (hx : runW ((key C).size x.key) ((key C).ser x.key) = o.res) :
    getHandle C (entryOf dref (a ++ x :: b)) = o.res := by
  have hs := sizes_rows C hn (by omega)
  have ht : (table C).size ((a ++ x :: b).map Row.key) = 8 + ((a ++ x :: b).map Row.bytes).sum := by
    show listSize (key C) 8 _ = _
    rw [listSize_sum _ _ _ (by omega), hs]
  have hm : ((a ++ x :: b).map Row.bytes).sum = (a.map Row.bytes).sum + (x.bytes + (b.map Row.bytes).sum) := by
    rw [List.map_append, List.sum_append, List.map_cons, List.sum_cons]
  have hxs : (key C).size x.key = x.bytes := Row.size C (hn x (by simp)) (by omega)
  have hw : Prot.WritesAll (key C) (rowKids a) := by
    refine writesAll_of fun k hk => ?_
    obtain ⟨r, hr, rfl⟩ := List.mem_map.1 hk
    have := row_length_le hr
    have := rowsWire_sum ha
    exact Row.survives C (ha r hr) (by omega)
  have h1 : Stops (serList (key C) ((a ++ x :: b).map Row.key)) ((a.map Row.bytes).sum + x.bytes) o := by
    have := stops_list hw hx (b.map Row.key)
    rw [vals_rowKids, wire_rowKids, rowsWire_sum ha, hxs] at this
    rw [List.map_append, List.map_cons]
    exact this
  have h2 : runW ((table C).size ((a ++ x :: b).map Row.key)) ((table C).ser ((a ++ x :: b).map Row.key)) = o.res := by
    refine Stops.run (n := 8 + ((a.map Row.bytes).sum + x.bytes)) ?_ (by omega) (by omega)
    exact Stops.after (emits_serBase _ _) (Stops.left h1)
  have hz : (mebx (boxes C)).size (entryOf dref (a ++ x :: b)) = 24 + ((a ++ x :: b).map Row.bytes).sum := by
    show listSize (boxes C) 16 [.keys ((a ++ x :: b).map Row.key)] = _
    show (16 + (table C).size ((a ++ x :: b).map Row.key)) % 4294967296 = _
    omega
  have h3 : Stops (serList (boxes C) [.keys ((a ++ x :: b).map Row.key)]) ((table C).size ((a ++ x :: b).map Row.key)) o :=
    Stops.left (Stops.nested h2)
  unfold getHandle
  rw [hz]
  refine Stops.run (n := 8 + (6 + (2 + (0 + (table C).size ((a ++ x :: b).map Row.key))))) ?_ (by omega) hl
  have e : (mebx (boxes C)).ser (entryOf dref (a ++ x :: b)) = Entry.serialize (boxes C)
      ((mebx (boxes C)).size (entryOf dref (a ++ x :: b))) (fun _ => W.skip) (entryOf dref (a ++ x :: b)) := rfl
  rw [e]
  unfold Entry.serialize
  rw [if_neg (show ¬ (entryOf (α := α) dref (a ++ x :: b)).type = 0 from show ¬ fcc 'm' 'e' 'b' 'x' = 0 by decide)]
  exact Stops.after (emits_serBase _ _) (Stops.after (emits_bytes [0, 0, 0, 0, 0, 0]) (Stops.after (emits_put16 _)
    (Stops.after emits_skip (Stops.left h3))))

/-! ## Entries that are read -/

theorem mebx_reads_list {C : Class α} {ks : List (Kid (Bx α))} (hk : Readable (boxes C) ks) {v : List (Bx α) × Bool}
    (ha : adds mebxAdd ([], false) ks = .ok v) {reserved : Bytes} (h6 : reserved.length = 6) {dref : Nat}
    (hd : dref < 65536) (hl : 16 + (Ent.wire ks).length < 4294967296) :
    readEntry C (box (fcc 'm' 'e' 'b' 'x') (headWire reserved dref ++ Ent.wire ks)) =
      .ok ⟨fcc 'm' 'e' 'b' 'x', reserved, dref, v.2, v.1⟩ := by
  have hp : (headWire reserved dref ++ Ent.wire ks).length = 8 + (Ent.wire ks).length := by
    simp [headWire, h6]; omega
  have hr : Reads (mebx (boxes C)) (fcc 'm' 'e' 'b' 'x') ⟨fcc 'm' 'e' 'b' 'x', reserved, dref, v.2, v.1⟩
      (box (fcc 'm' 'e' 'b' 'x') (headWire reserved dref ++ Ent.wire ks)) := by
    refine reads_of ?_ (by omega) (by unfold GoodType; decide)
    unfold headWire
    rw [List.append_assoc]
    refine ((parses_getBytes h6).at _).bind ?_
    refine ((parses_get16' hd).at _).bind ?_
    refine ParsesAt.bind_nil (a := v) ?_ ((parses_pure _).at _)
    have e : 8 + (reserved ++ (be 2 dref ++ Ent.wire ks)).length = 16 + (Ent.wire ks).length := by simp [h6]; omega
    rw [e]
    have e2 : 8 + reserved.length + (be 2 dref).length = 16 := by rw [h6, be_length]
    rw [e2]
    exact parsesAt_addAll hk (add := mebxAdd) (init := ([], false)) (v := v) (size := 16 + (Ent.wire ks).length)
      (k := 16) rfl hl ha
  obtain ⟨hdr, h1, h2, h3⟩ := hr.2 []
  have hh := header_box (type := fcc 'm' 'e' 'b' 'x') (payload := headWire reserved dref ++ Ent.wire ks) (by omega)
    (by unfold GoodType; decide) []
  rw [List.append_nil] at h3 hh
  unfold readEntry
  rw [hh]
  simp only
  rw [if_pos (by decide), h3]

theorem mebx_reads {C : Class α} {l : List (Key α)} {b : Bytes} (h : Reads (boxes C) (fcc 'k' 'e' 'y' 's') (.keys l) b)
    {dref : Nat} (hd : dref < 65536) (hl : 16 + b.length < 4294967296) :
    readEntry C (box (fcc 'm' 'e' 'b' 'x') (headWire [0, 0, 0, 0, 0, 0] dref ++ b)) =
      .ok ⟨fcc 'm' 'e' 'b' 'x', [0, 0, 0, 0, 0, 0], dref, true, [.keys l]⟩ := by
  let k : Kid (Bx α) := ⟨fcc 'k' 'e' 'y' 's', .keys l, b⟩
  have hk : Readable (boxes C) [k] := by
    intro c hc
    rw [List.mem_singleton] at hc
    subst hc
    exact h
  have hw : Ent.wire [k] = b := by simp [Ent.wire, k]
  have ha : adds mebxAdd ([], false) [k] = .ok ([.keys l], true) := by
    simp only [adds]
    rw [if_neg (show ¬ isFree (fcc 'k' 'e' 'y' 's') = true by decide)]
    unfold mebxAdd
    rw [if_pos (show k.type = typeKeys from rfl)]
    rfl
  rw [← hw] at hl ⊢
  exact mebx_reads_list hk ha rfl hd hl

/-- Boxes other than the table. -/
def outer (ks : List (Kid α)) : List (Kid (Bx α)) := ks.map fun k => ⟨k.type, .other k.val, k.bytes⟩

theorem wire_outer (ks : List (Kid α)) : Ent.wire (outer ks) = Ent.wire ks := by
  simp [Ent.wire, outer, List.flatMap_map]

theorem outer_readable {C : Class α} {ks : List (Kid α)} (h : Readable C ks) (ht : ∀ k ∈ ks, k.type ≠ fcc 'k' 'e' 'y' 's') :
    Readable (boxes C) (outer ks) := by
  intro k hk
  obtain ⟨c, hc, rfl⟩ := List.mem_map.1 hk
  obtain ⟨h1, h2⟩ := h c hc
  refine ⟨h1, fun rest => ?_⟩
  obtain ⟨hd, e1, e2, e3⟩ := h2 rest
  refine ⟨hd, e1, e2, ?_⟩
  have e : ∀ hd : Hdr, hd.type = c.type → (boxes C).parse hd = P.as .other (C.parse hd) := by
    intro hd he
    have h3 : hd.type ≠ fcc 'k' 'e' 'y' 's' := by rw [he]; exact ht c hc
    exact if_neg h3
  exact parseAtom_as (f := Bx.other) e3 (e hd e1)

theorem adds_outer {ks : List (Kid α)} (ht : ∀ k ∈ ks, k.type ≠ fcc 'k' 'e' 'y' 's') (b : Bool) :
    ∀ a : List (Bx α), adds mebxAdd (a, b) (outer ks) = .ok (a ++ (vals (stay ks)).map .other, b) := by
  induction ks with
  | nil => intro a; simp [adds, outer, vals, stay]
  | cons k ks ih =>
    intro a
    have ih := ih fun c hc => ht c (by simp [hc])
    have h3 : k.type ≠ typeKeys := ht k (by simp)
    show (if isFree k.type then Res.ok (a, b) else mebxAdd (a, b) k.type (.other k.val)).bind
      (fun s' => adds mebxAdd s' (outer ks)) = _
    by_cases hf : Dropped k.type
    · rw [if_pos (isFree_iff.2 hf)]
      show adds mebxAdd (a, b) (outer ks) = _
      rw [ih]
      simp [stay, hf]
    · rw [if_neg (fun x => hf (isFree_iff.1 x))]
      unfold mebxAdd
      rw [if_neg h3]
      show adds mebxAdd (a ++ [.other k.val], b) (outer ks) = _
      rw [ih]
      simp [stay, hf, vals]

theorem adds_append {σ β : Type} {add : σ → Nat → β → Res σ} {a b : List (Kid β)} : ∀ {s s' : σ}, adds add s a = .ok s' →
    adds add s (a ++ b) = adds add s' b := by
  induction a with
  | nil =>
    intro s s' h
    simp only [adds, Res.ok.injEq] at h
    subst h
    rfl
  | cons k a ih =>
    intro s s' h
    simp only [List.cons_append, adds] at h ⊢
    cases hk : (if isFree k.type then Res.ok s else add s k.type k.val) with
    | ok s1 =>
      rw [hk] at h
      exact ih h
    | err e => rw [hk] at h; cases h
    | ub => rw [hk] at h; cases h

theorem table_reads {C : Class α} {ks : List (Kid (Key α))} (h : Readable (key C) ks) (hn : (ids (vals ks)).Nodup)
    (hl : 8 + (wire ks).length < 4294967296) :
    Reads (boxes C) (fcc 'k' 'e' 'y' 's') (.keys (vals ks)) (box (fcc 'k' 'e' 'y' 's') (wire ks)) := by
  refine reads_of ?_ hl (by unfold GoodType; decide)
  have e : ∀ hd : Hdr, hd.type = fcc 'k' 'e' 'y' 's' → (boxes C).parse hd = P.as .keys ((table C).parse hd) :=
    fun hd h => if_pos h
  rw [e _ rfl]
  unfold P.as
  refine ParsesAt.bind_nil (a := vals ks) ?_ ((parses_pure _).at _)
  intro r
  rw [table_parse h hl, if_pos hn]

end Verif.Meb
