import Verif.Spec.OpenFile
import Verif.Props.C29
import Verif.Props.C43
import Verif.Props.C84
import Verif.Lemmas.Tree

/-!
# C85: opening whole files
-/

namespace Verif.OpenFile

open Movie (ParsedAt InOrder)

variable {α : Type} {K : Kinds α}

/-! ## One box -/

/-- The box at `pos`, as read. -/
def Box.top (b : Box α) (pos : Nat) : Top α :=
  if b.type = Mdat.typeMdat then .mdat (if b.payload = [] then Mdat.create else Mdat.parsedAs pos b.head b.payload) else .other b.value

theorem wire_length (b : Box α) : b.wire.length = b.head + b.payload.length := by
  unfold Box.wire Box.head
  cases b.long <;> simp <;> omega

theorem header_ok {b : Box α} (h : b.Good K) (rest : Bytes) :
    parseHeader (b.wire ++ rest) = .ok (b.hdr, b.payload ++ rest) := by
  have h1 := h.size
  have h2 := h.type
  have h3 : b.type ≠ typeUuid := h.plain
  unfold Box.wire Box.hdr
  cases hl : b.long with
  | false =>
    rw [hl] at h1
    simp only [Bool.false_eq_true, if_false] at h1 ⊢
    rw [List.append_assoc]
    exact parseHeader_small h1 (by omega) h2 h3 _ (by simp)
  | true =>
    rw [hl] at h1
    simp only [if_true] at h1 ⊢
    simp only [List.append_assoc]
    exact Mdat.parseHeader_large h1 h2 h3 _

theorem body_ok {b : Box α} (h : b.Good K) (pos : Nat) (rest : Bytes) :
    ∃ k, top K pos b.hdr ⟨b.payload ++ rest, b.hdr.hlen⟩ = .ok (b.top pos, ⟨rest, k⟩) := by
  have ht : b.hdr.type = b.type := by unfold Box.hdr; cases b.long <;> rfl
  have hn : b.hdr.hlen = b.head := by unfold Box.hdr Box.head; cases b.long <;> rfl
  unfold top Box.top
  rw [ht, hn]
  by_cases hm : b.type = Mdat.typeMdat
  · rw [if_pos hm, if_pos hm]
    have hb : Mdat.bytesToRead b.hdr b.head = b.payload.length := by
      have h1 := h.size
      unfold Mdat.bytesToRead Box.hdr Box.head
      cases hl : b.long with
      | false =>
        rw [hl] at h1
        simp only [Bool.false_eq_true, if_false] at h1 ⊢
        rw [if_neg (by omega)]
        omega
      | true =>
        rw [hl] at h1
        simp only [if_true] at h1 ⊢
        omega
    by_cases hp : b.payload = []
    · rw [if_pos hp]
      rw [hp] at hb ⊢
      refine ⟨b.head, ?_⟩
      show (Top.mdat <$> Mdat.parseBody pos b.hdr : P (Top α)) ⟨[] ++ rest, b.head⟩ = _
      have : Mdat.parseBody pos b.hdr ⟨[] ++ rest, b.head⟩ = .ok (Mdat.create, ⟨rest, b.head⟩) := by
        unfold Mdat.parseBody
        simp only [hb, List.length_nil]
        rfl
      simp only [Functor.map, this]
      rfl
    · rw [if_neg hp]
      obtain ⟨k, hk⟩ := Mdat.parseBody_ok pos b.hdr b.head b.payload rest hp hb
      refine ⟨k, ?_⟩
      simp only [Functor.map, hk]
      rfl
  · rw [if_neg hm, if_neg hm]
    refine ⟨b.head + b.payload.length, ?_⟩
    have := h.reads hm rest
    simp only [Functor.map, this]
    rfl

theorem box_ok {b : Box α} (h : b.Good K) (pos : Nat) (rest : Bytes) :
    parseAtom (top K pos) (b.wire ++ rest) = .ok (b.top pos, b.hdr, rest) := by
  obtain ⟨k, hk⟩ := body_ok h pos rest
  refine Mdat.parseAtom_of (s := ⟨rest, k⟩) (header_ok h rest) hk ?_
  have : Mdat.declared b.hdr = b.head + b.payload.length := by
    unfold Mdat.declared Box.hdr Box.head
    cases hl : b.long
    · simp only [Bool.false_eq_true, if_false]
      rw [if_neg (by omega)]
    · simp
  rw [this, List.length_append, wire_length]
  show b.head + b.payload.length + rest.length ≤ _
  omega

/-- A last box of size 0. -/
theorem open_ok {b : Box α} (h : b.Good K) (hl : b.long = false) (pos : Nat) :
    parseAtom (top K pos) b.open = .ok (b.top pos, b.hdr, []) := by
  obtain ⟨k, hk⟩ := body_ok h pos []
  have h1 := h.size
  have h2 := h.type
  have h3 : b.type ≠ typeUuid := h.plain
  rw [hl] at h1
  simp only [Bool.false_eq_true, if_false] at h1
  have hh : parseHeader b.open = .ok (b.hdr, b.payload ++ []) := by
    have := Tree.parseHeader_fwd (size := 8 + b.payload.length) (type := b.type) (zero := true) (uuid := []) h1 h2 (by rw [if_neg h3]; rfl) b.payload
      (by simp) (by simp) (fun _ => by simp)
    simp only [if_true, List.append_nil, List.length_nil] at this
    unfold Box.open Box.hdr
    rw [this, hl]
    simp
  refine Mdat.parseAtom_of (s := ⟨[], k⟩) hh hk ?_
  unfold Mdat.declared Box.hdr Box.open
  rw [hl]
  simp only [Bool.false_eq_true, if_false, List.length_append, be_length]
  rw [if_neg (by omega)]
  simp

/-! ## All boxes -/

theorem placed_append (bs : List (Box α)) (b : Box α) : ∀ pos, placed pos (bs ++ [b]) = placed pos bs ++ [(pos + (fileOf bs).length, b)] := by
  induction bs with
  | nil => intro pos; simp [placed, fileOf]
  | cons a bs ih =>
    intro pos
    simp only [List.cons_append, placed, ih, fileOf, List.flatMap_cons, List.length_append]
    rw [Nat.add_assoc]

theorem fileOf_append (bs cs : List (Box α)) : fileOf (bs ++ cs) = fileOf bs ++ fileOf cs := List.flatMap_append

theorem the_append (t : Nat) (bs : List (Box α)) (b : Box α) :
    the t (bs ++ [b]) = (the t bs).or (if b.type = t then some b.value else none) := by
  unfold the
  rw [List.find?_append]
  cases bs.find? fun b => decide (b.type = t) with
  | some _ => simp
  | none =>
    by_cases h : b.type = t <;> simp [h]

theorem the_none {t : Nat} {bs : List (Box α)} (h : ∀ a ∈ bs, a.type ≠ t) : the t bs = none := by
  unfold the
  rw [List.find?_eq_none.mpr (by simpa using h)]
  rfl

theorem the_some {t : Nat} {bs : List (Box α)} {a : Box α} (ha : a ∈ bs) (h : a.type = t) : ∃ x, the t bs = some x := by
  unfold the
  cases e : bs.find? fun b => decide (b.type = t) with
  | some y => exact ⟨y.value, rfl⟩
  | none =>
    have := List.find?_eq_none.mp e a ha
    simp [h] at this

/-- The box that is added is not the second of a type that should be there once. -/
def New (bs : List (Box α)) (b : Box α) : Prop := b.type ∈ singles → ∀ a ∈ bs, a.type ≠ b.type

theorem the_other {t : Nat} {bs : List (Box α)} {b : Box α} (h : b.type ≠ t) : the t (bs ++ [b]) = the t bs := by
  rw [the_append, if_neg h, Option.or_none]

theorem the_new {t : Nat} {bs : List (Box α)} {b : Box α} (h : b.type = t) (hn : ∀ a ∈ bs, a.type ≠ b.type) :
    the t bs = none ∧ the t (bs ++ [b]) = some b.value := by
  have : the t bs = none := the_none (fun a ha => h ▸ hn a ha)
  rw [the_append, if_pos h, this]
  exact ⟨rfl, rfl⟩

theorem put_ok (inPlace : Bool) (bs : List (Box α)) (b : Box α) (h : New bs b) :
    put inPlace (fileOf bs).length b.type (b.top (fileOf bs).length) (meaning inPlace bs) = .ok (meaning inPlace (bs ++ [b])) := by
  have e1 : (placed 0 (bs ++ [b])).filterMap dataOf = (placed 0 bs).filterMap dataOf ++ (dataOf ((fileOf bs).length, b)).toList := by
    rw [placed_append, List.filterMap_append, Nat.zero_add]
    cases h : dataOf ((fileOf bs).length, b) <;> simp [h]
  have e2 : (placed 0 (bs ++ [b])).filterMap fragmentOf = (placed 0 bs).filterMap fragmentOf ++ (fragmentOf ((fileOf bs).length, b)).toList := by
    rw [placed_append, List.filterMap_append, Nat.zero_add]
    cases h : fragmentOf ((fileOf bs).length, b) <;> simp [h]
  by_cases hm : b.type = Mdat.typeMdat
  · have hf : fragmentOf ((fileOf bs).length, b) = none := by
      unfold fragmentOf
      exact if_neg (by show b.type ≠ _; rw [hm]; decide)
    have ht : ∀ t, t ≠ Mdat.typeMdat → the t (bs ++ [b]) = the t bs := fun t ht => the_other (by rw [hm]; exact ht.symm)
    have hr : meaning inPlace (bs ++ [b]) = { meaning inPlace bs with
        mdats := (if inPlace then [] else (placed 0 bs).filterMap dataOf ++ (dataOf ((fileOf bs).length, b)).toList) } := by
      unfold meaning
      rw [e1, e2, hf]
      simp only [Option.toList_none, List.append_nil]
      congr 1 <;> exact ht _ (by decide)
    rw [hr]
    unfold Box.top put
    rw [if_pos hm]
    simp only
    have hd : dataOf ((fileOf bs).length, b) =
        if b.payload ≠ [] ∧ b.payload.length < 2 ^ 31 then some (Mdat.parsedAs (fileOf bs).length b.head b.payload) else none := by
      unfold dataOf Mdat.parsedAs
      have hm' : b.type = fcc 'm' 'd' 'a' 't' := hm
      simp only [hm', true_and]
      split
      · next h => rw [if_pos h.2]
      · rfl
    by_cases hp : b.payload = []
    · have hv : dataOf ((fileOf bs).length, b) = none := by rw [hd]; exact if_neg (fun h => h.1 hp)
      rw [hv, if_pos hp]
      cases inPlace <;> simp [Mdat.create, meaning]
    · by_cases hb : b.payload.length < 2 ^ 31
      · have hv : dataOf ((fileOf bs).length, b) = some (Mdat.parsedAs (fileOf bs).length b.head b.payload) := by rw [hd]; exact if_pos ⟨hp, hb⟩
        have : (Mdat.parsedAs (fileOf bs).length b.head b.payload).dataSize ≠ 0 := by
          unfold Mdat.parsedAs
          rw [if_pos hb]
          exact fun h => hp (List.length_eq_zero_iff.mp h)
        rw [hv, if_neg hp]
        cases inPlace <;> simp [this, meaning]
      · have hv : dataOf ((fileOf bs).length, b) = none := by rw [hd]; exact if_neg (fun h => hb h.2)
        have : (Mdat.parsedAs (fileOf bs).length b.head b.payload).dataSize = 0 := by
          unfold Mdat.parsedAs
          rw [if_neg hb]
        rw [hv, if_neg hp]
        cases inPlace <;> simp [this, meaning]
  · have hd : dataOf ((fileOf bs).length, b) = none := by
      unfold dataOf
      rw [if_neg (fun h => hm h.1)]
    unfold Box.top put
    rw [if_neg hm]
    simp only
    by_cases c0 : b.type = typeMoof
    · have hf : fragmentOf ((fileOf bs).length, b) = some ((fileOf bs).length, b.value) := by
        unfold fragmentOf
        exact if_pos c0
      have ht : ∀ t, t ≠ typeMoof → the t (bs ++ [b]) = the t bs := fun t ht => the_other (by rw [c0]; exact ht.symm)
      rw [if_neg (by rw [c0]; decide), if_pos c0]
      unfold meaning
      rw [e1, e2, hf, hd]
      simp only [Option.toList_none, List.append_nil, Option.toList_some]
      congr 1
      congr 1 <;> exact (ht _ (by decide)).symm
    · have hf : fragmentOf ((fileOf bs).length, b) = none := by
        unfold fragmentOf
        exact if_neg c0
      rw [if_neg c0]
      have step : ∀ t, t ∈ singles → b.type = t → the t bs = none ∧ the t (bs ++ [b]) = some b.value := fun t h1 h2 =>
        the_new h2 (h (h2 ▸ h1))
      have fin : ∀ (t : Nat) (_ : b.type = t) (o : Boxes α),
          (o.moov = if typeMoov = t then some b.value else the typeMoov bs) → (o.ftyp = if typeFtyp = t then some b.value else the typeFtyp bs) →
          (o.sgnt = if typeSgnt = t then some b.value else the typeSgnt bs) → (o.jp2h = if typeJp2h = t then some b.value else the typeJp2h bs) →
          (o.info = if typeMeta = t then some b.value else the typeMeta bs) → (o.meco = if typeMeco = t then some b.value else the typeMeco bs) →
          o.mdats = (meaning inPlace bs).mdats → o.moofs = (meaning inPlace bs).moofs → o = meaning inPlace (bs ++ [b]) := by
        intro t ht o h1 h2 h3 h4 h5 h6 h7 h8
        have key : ∀ u ∈ singles, (if u = t then some b.value else the u bs) = the u (bs ++ [b]) := by
          intro u hu
          split
          · next hut => exact (step u hu (by omega)).2.symm
          · next hut => exact (the_other (by omega)).symm
        obtain ⟨o1, o2, o3, o4, o5, o6, o7, o8⟩ := o
        simp only at h1 h2 h3 h4 h5 h6 h7 h8
        unfold meaning
        rw [e1, e2, hd, hf]
        simp only [Option.toList_none, List.append_nil]
        congr 1
        · rw [h1]; exact key _ (by decide)
        · rw [h2]; exact key _ (by decide)
        · rw [h3]; exact key _ (by decide)
        · rw [h4]; exact key _ (by decide)
        · rw [h5]; exact key _ (by decide)
        · rw [h6]; exact key _ (by decide)
      have n1 : the typeMoov bs = (meaning inPlace bs).moov := rfl
      have n2 : the typeFtyp bs = (meaning inPlace bs).ftyp := rfl
      have n3 : the typeSgnt bs = (meaning inPlace bs).sgnt := rfl
      have n4 : the typeJp2h bs = (meaning inPlace bs).jp2h := rfl
      have n5 : the typeMeta bs = (meaning inPlace bs).info := rfl
      have n6 : the typeMeco bs = (meaning inPlace bs).meco := rfl
      have go : ∀ t, b.type = t → t ∈ singles → (meaning inPlace bs).moov = (meaning inPlace bs).moov → the t bs = none := fun t h1 h2 _ => (step t h2 h1).1
      repeat' split
      · next c => rw [← n1, go _ c (by decide) rfl]; simp only [once, Res.bind]; exact congrArg _ (fin _ c _ rfl rfl rfl rfl rfl rfl rfl rfl)
      · next c => rw [← n2, go _ c (by decide) rfl]; simp only [once, Res.bind]; exact congrArg _ (fin _ c _ rfl rfl rfl rfl rfl rfl rfl rfl)
      · next c => rw [← n3, go _ c (by decide) rfl]; simp only [once, Res.bind]; exact congrArg _ (fin _ c _ rfl rfl rfl rfl rfl rfl rfl rfl)
      · next c => rw [← n4, go _ c (by decide) rfl]; simp only [once, Res.bind]; exact congrArg _ (fin _ c _ rfl rfl rfl rfl rfl rfl rfl rfl)
      · next c => rw [← n5, go _ c (by decide) rfl]; simp only [once, Res.bind]; exact congrArg _ (fin _ c _ rfl rfl rfl rfl rfl rfl rfl rfl)
      · next c => rw [← n6, go _ c (by decide) rfl]; simp only [once, Res.bind]; exact congrArg _ (fin _ c _ rfl rfl rfl rfl rfl rfl rfl rfl)
      · next c1 c2 c3 c4 c5 c6 =>
        exact congrArg _ (fin b.type rfl _ (if_neg (Ne.symm c1)).symm (if_neg (Ne.symm c2)).symm (if_neg (Ne.symm c3)).symm (if_neg (Ne.symm c4)).symm
          (if_neg (Ne.symm c5)).symm (if_neg (Ne.symm c6)).symm rfl rfl)

/-- The second of a type that should be there once. -/
theorem put_twice (inPlace : Bool) (bs : List (Box α)) (a b : Box α) (pos : Nat) (ha : a ∈ bs) (h : a.type = b.type) (hs : b.type ∈ singles) :
    put inPlace pos b.type (b.top pos) (meaning inPlace bs) = .err .badData := by
  have hx : ∀ t, b.type = t → ∃ x, the t bs = some x := fun t ht => the_some ha (h.trans ht)
  have hm : b.type ≠ Mdat.typeMdat := by
    intro h
    rw [h] at hs
    exact absurd hs (by decide)
  have h0 : b.type ≠ typeMoof := by
    intro h
    rw [h] at hs
    exact absurd hs (by decide)
  unfold Box.top put
  rw [if_neg hm]
  simp only
  rw [if_neg h0]
  have hl : ∀ t (c : b.type = t) (o : Option α), o = the t bs → ∀ f : Option α → Res (Boxes α), (once o b.value).bind f = .err .badData := by
    intro t c o ho f
    obtain ⟨x, hx⟩ := hx t c
    rw [ho, hx]
    rfl
  split
  · next c => exact hl _ c _ rfl _
  split
  · next c => exact hl _ c _ rfl _
  split
  · next c => exact hl _ c _ rfl _
  split
  · next c => exact hl _ c _ rfl _
  split
  · next c => exact hl _ c _ rfl _
  split
  · next c => exact hl _ c _ rfl _
  next c1 c2 c3 c4 c5 c6 =>
  exfalso
  have : b.type ∈ [typeMoov, typeFtyp, typeSgnt, typeJp2h, typeMeta, typeMeco] := hs
  simp only [List.mem_cons, List.not_mem_nil, or_false] at this
  omega

theorem once_new {pre bs : List (Box α)} {b : Box α} (h : Once (pre ++ b :: bs)) : New pre b := by
  intro hs a ha e
  have := (List.pairwise_append.mp h).2.2 a ha b (by simp) e
  exact this (e ▸ hs)

theorem hdr_type (b : Box α) : b.hdr.type = b.type := by unfold Box.hdr; cases b.long <;> rfl

/-- The loop over the boxes before the rest of the file. -/
theorem loop_pre (inPlace : Bool) (tail : Bytes) (ht : tail ≠ []) : ∀ (bs pre : List (Box α)) (n : Nat), (∀ b ∈ bs, b.Good K) → Once (pre ++ bs) →
    loop K inPlace (fileOf (pre ++ bs) ++ tail) (n + bs.length) (fileOf pre).length (meaning inPlace pre) =
      loop K inPlace (fileOf (pre ++ bs) ++ tail) n (fileOf (pre ++ bs)).length (meaning inPlace (pre ++ bs))
  | [], pre, n, _, _ => by rw [List.append_nil]; rfl
  | b :: bs, pre, n, hg, ho => by
    have ih := loop_pre inPlace tail ht bs (pre ++ [b]) n (fun c hc => hg c (List.mem_cons_of_mem _ hc)) (by simpa using ho)
    rw [List.append_assoc, List.singleton_append] at ih
    rw [← ih, List.length_cons, ← Nat.add_assoc, loop]
    have hfile : fileOf (pre ++ b :: bs) ++ tail = fileOf pre ++ (b.wire ++ (fileOf bs ++ tail)) := by
      rw [fileOf_append]
      simp [fileOf]
    have hd : (fileOf (pre ++ b :: bs) ++ tail).drop (fileOf pre).length = b.wire ++ (fileOf bs ++ tail) := by
      rw [hfile, List.drop_left]
    rw [hd, box_ok (hg b (by simp))]
    simp only [hdr_type, put_ok inPlace pre b (once_new ho), Res.bind]
    have hn : (fileOf bs ++ tail).length ≠ 0 := by
      have := List.length_pos_iff.mpr ht
      rw [List.length_append]
      omega
    rw [if_neg hn]
    congr 1
    rw [hfile, fileOf_append]
    simp only [List.length_append, fileOf, List.flatMap_cons, List.flatMap_nil, List.length_nil]
    omega

theorem count_le : ∀ bs : List (Box α), bs.length ≤ (fileOf bs).length
  | [] => by simp
  | b :: bs => by
    have := count_le bs
    have := wire_length b
    have : 8 ≤ b.head := by unfold Box.head; split <;> omega
    simp only [fileOf, List.flatMap_cons, List.length_append, List.length_cons] at *
    omega

theorem loop_boxes (inPlace : Bool) (tail : Bytes) (ht : tail ≠ []) (bs : List (Box α)) (hg : ∀ b ∈ bs, b.Good K) (ho : Once bs) :
    ∃ n, loop K inPlace (fileOf bs ++ tail) ((fileOf bs ++ tail).length + 1) 0 {} =
      loop K inPlace (fileOf bs ++ tail) (n + 1) (fileOf bs).length (meaning inPlace bs) := by
  have h := loop_pre (K := K) inPlace tail ht bs [] ((fileOf bs ++ tail).length - bs.length + 1) hg ho
  refine ⟨(fileOf bs ++ tail).length - bs.length, ?_⟩
  rw [List.nil_append] at h
  rw [← h]
  have h1 := count_le bs
  have h2 : (fileOf bs ++ tail).length + 1 = (fileOf bs ++ tail).length - bs.length + 1 + bs.length := by
    rw [List.length_append]
    omega
  rw [h2]
  have h3 : meaning inPlace ([] : List (Box α)) = {} := by
    unfold meaning the placed
    cases inPlace <;> rfl
  rw [h3]
  rfl

theorem the_isNone {t : Nat} {bs : List (Box α)} : (the t bs).isNone = true ↔ ∀ a ∈ bs, a.type ≠ t := by
  constructor
  · intro h a ha e
    obtain ⟨x, hx⟩ := the_some ha e
    rw [hx] at h
    cases h
  · intro h
    rw [the_none h]
    rfl

/-- The loop to the end, with a last box in any form that is read as the box is. -/
theorem loop_all (inPlace : Bool) (bs : List (Box α)) (b : Box α) (bytes : Bytes) (hb : bytes ≠ []) (hg : ∀ b ∈ bs, b.Good K) (ho : Once (bs ++ [b]))
    (hp : ∀ pos, parseAtom (top K pos) bytes = .ok (b.top pos, b.hdr, [])) :
    loop K inPlace (fileOf bs ++ bytes) ((fileOf bs ++ bytes).length + 1) 0 {} = .ok (meaning inPlace (bs ++ [b])) := by
  obtain ⟨n, hn⟩ := loop_boxes (K := K) inPlace bytes hb bs hg (List.pairwise_append.mp ho).1
  rw [hn, loop, List.drop_left, hp]
  simp only [hdr_type, put_ok inPlace bs b (once_new ho), Res.bind, List.length_nil, if_true]

theorem boxes_of_loop {inPlace : Bool} {file : Bytes} {bs : List (Box α)} (h : loop K inPlace file (file.length + 1) 0 {} = .ok (meaning inPlace bs)) :
    (∃ b ∈ bs, b.type = fcc 'm' 'o' 'o' 'v' ∨ b.type = fcc 'f' 't' 'y' 'p') → boxes K inPlace file = .ok (meaning inPlace bs) := by
  rintro ⟨b, hb, hc⟩
  unfold boxes
  rw [h]
  simp only [Res.bind]
  refine if_neg ?_
  simp only [Bool.and_eq_true]
  rintro ⟨h1, h2⟩
  rcases hc with hc | hc
  · exact the_isNone.mp h1 b hb hc
  · exact the_isNone.mp h2 b hb hc

theorem wire_ne (b : Box α) : b.wire ≠ [] := by
  intro h
  have h1 := wire_length b
  have : 8 ≤ b.head := by unfold Box.head; split <;> omega
  rw [h] at h1
  simp only [List.length_nil] at h1
  omega

theorem last_cases {β : Type} : ∀ (l : List β), l ≠ [] → ∃ xs x, l = xs ++ [x]
  | [], h => absurd rfl h
  | a :: l, _ => ⟨(a :: l).dropLast, (a :: l).getLast (by simp), (List.dropLast_concat_getLast (by simp)).symm⟩

/-- **C85, in part.** A file made of boxes that can be read, in any order, with a movie box or a file type box: what is found is the movie, the file type,
the JPEG 2000 signature and header, the meta box and the box of further ones, all media data boxes with data and all fragments with their places. Other
boxes make no difference. -/
theorem c85_boxes (inPlace : Bool) (bs : List (Box α)) (hg : ∀ b ∈ bs, b.Good K) (ho : Once bs)
    (hm : ∃ b ∈ bs, b.type = fcc 'm' 'o' 'o' 'v' ∨ b.type = fcc 'f' 't' 'y' 'p') : boxes K inPlace (fileOf bs) = .ok (meaning inPlace bs) := by
  obtain ⟨xs, x, rfl⟩ := last_cases bs (by obtain ⟨b, hb, _⟩ := hm; intro h; rw [h] at hb; simp at hb)
  refine boxes_of_loop ?_ hm
  have hx : fileOf (xs ++ [x]) = fileOf xs ++ x.wire := by rw [fileOf_append]; simp [fileOf]
  rw [hx]
  refine loop_all inPlace xs x x.wire (wire_ne x) (fun b hb => hg b (by simp [hb])) ho fun pos => ?_
  have := box_ok (hg x (by simp)) pos []
  rwa [List.append_nil] at this

/-- The last box may have size 0, "to the end of the file". -/
theorem c85_to_the_end (inPlace : Bool) (bs : List (Box α)) (b : Box α) (hl : b.long = false) (hg : ∀ c ∈ bs ++ [b], c.Good K) (ho : Once (bs ++ [b]))
    (hm : ∃ c ∈ bs ++ [b], c.type = fcc 'm' 'o' 'o' 'v' ∨ c.type = fcc 'f' 't' 'y' 'p') :
    boxes K inPlace (fileOf bs ++ b.open) = .ok (meaning inPlace (bs ++ [b])) := by
  refine boxes_of_loop ?_ hm
  refine loop_all inPlace bs b b.open ?_ (fun c hc => hg c (by simp [hc])) ho fun pos => open_ok (hg b (by simp)) hl pos
  intro h
  have := congrArg List.length h
  simp [Box.open] at this

theorem first_twice : ∀ (bs pre : List (Box α)), Once pre → ¬ Once (pre ++ bs) →
    ∃ xs b ys, bs = xs ++ b :: ys ∧ Once (pre ++ xs) ∧ ¬ New (pre ++ xs) b
  | [], pre, h, h' => absurd (by simpa using h) h'
  | b :: bs, pre, h, h' => by
    by_cases hn : New pre b
    · have ho : Once (pre ++ [b]) := by
        refine List.pairwise_append.mpr ⟨h, by simp, fun a ha c hc e => ?_⟩
        simp only [List.mem_singleton] at hc
        subst hc
        intro hs
        exact hn (e ▸ hs) a ha e
      obtain ⟨xs, c, ys, h1, h2, h3⟩ := first_twice bs (pre ++ [b]) ho (by simpa using h')
      refine ⟨b :: xs, c, ys, by simp [h1], by simpa using h2, by simpa using h3⟩
    · exact ⟨[], b, bs, rfl, by simpa using h, by simpa using hn⟩

/-- A file with two boxes of one of the kinds of which there should be one is refused. -/
theorem c85_twice (inPlace : Bool) (bs : List (Box α)) (hg : ∀ b ∈ bs, b.Good K) (ho : ¬ Once bs) :
    boxes K inPlace (fileOf bs) = .err .badData := by
  obtain ⟨xs, b, ys, rfl, h1, h2⟩ := first_twice bs [] (by simp [Once]) (by simpa using ho)
  rw [List.nil_append] at h1 h2
  have hf : fileOf (xs ++ b :: ys) = fileOf xs ++ (b.wire ++ fileOf ys) := by rw [fileOf_append]; simp [fileOf]
  obtain ⟨n, hn⟩ := loop_boxes (K := K) inPlace (b.wire ++ fileOf ys) (by simp [wire_ne]) xs (fun c hc => hg c (by simp [hc])) h1
  unfold boxes
  rw [hf, hn, loop, List.drop_left, box_ok (hg b (by simp))]
  unfold New at h2
  have h2 : ∃ a ∈ xs, a.type = b.type ∧ b.type ∈ singles := by
    by_cases hs : b.type ∈ singles
    · by_cases hx : ∃ a ∈ xs, a.type = b.type
      · obtain ⟨a, ha, e⟩ := hx
        exact ⟨a, ha, e, hs⟩
      · exact absurd (fun _ a ha e => hx ⟨a, ha, e⟩) h2
    · exact absurd (fun h => absurd h hs) h2
  obtain ⟨a, ha, e, hs⟩ := h2
  simp only [hdr_type, put_twice inPlace xs a b _ ha e hs, Res.bind]

/-- A file with neither a movie box nor a file type box is refused. -/
theorem c85_neither (inPlace : Bool) (bs : List (Box α)) (hne : bs ≠ []) (hg : ∀ b ∈ bs, b.Good K)
    (hm : ∀ b ∈ bs, b.type ≠ fcc 'm' 'o' 'o' 'v' ∧ b.type ≠ fcc 'f' 't' 'y' 'p') : boxes K inPlace (fileOf bs) = .err .badData := by
  by_cases ho : Once bs
  · obtain ⟨xs, x, rfl⟩ := last_cases bs hne
    have hx : fileOf (xs ++ [x]) = fileOf xs ++ x.wire := by rw [fileOf_append]; simp [fileOf]
    have := loop_all (K := K) inPlace xs x x.wire (wire_ne x) (fun b hb => hg b (by simp [hb])) ho fun pos => by
      have := box_ok (hg x (by simp)) pos []
      rwa [List.append_nil] at this
    unfold boxes
    rw [hx, this]
    simp only [Res.bind]
    refine if_pos ?_
    rw [Bool.and_eq_true]
    exact ⟨the_isNone.mpr fun a ha => (hm a ha).1, the_isNone.mpr fun a ha => (hm a ha).2⟩
  · exact c85_twice inPlace bs hg ho

/-- Whatever comes after boxes that can be read: if it cannot be read, the file is refused, with that error. -/
theorem c85_damaged (inPlace : Bool) (bs : List (Box α)) (hg : ∀ b ∈ bs, b.Good K) (ho : Once bs) (tail : Bytes) (ht : tail ≠ []) (e : Err) (he : e ≠ .eof)
    (hb : parseAtom (top K (fileOf bs).length) tail = .err e) : boxes K inPlace (fileOf bs ++ tail) = .err e := by
  obtain ⟨n, hn⟩ := loop_boxes (K := K) inPlace tail ht bs hg ho
  unfold boxes
  rw [hn, loop, List.drop_left, hb]
  cases e <;> first | rfl | exact absurd rfl he

theorem short_word (r : Bytes) (h : r.length < 4) : rd32 r = .err .ioErr := by
  match r, h with
  | [], _ | [_], _ | [_, _], _ | [_, _, _], _ => rfl
  | _ :: _ :: _ :: _ :: _, h => simp at h; omega

theorem short_header (tail : Bytes) (h : tail.length < 8) : parseHeader tail = .err .ioErr ∨ parseHeader tail = .err .badData := by
  by_cases h4 : tail.length < 4
  · left
    unfold parseHeader
    rw [short_word tail h4]
    rfl
  · cases e : rd32 tail with
    | ub => exact absurd e (Tree.rd32_not_ub tail)
    | err x =>
      left
      match tail, h4 with
      | [], h4 | [_], h4 | [_, _], h4 | [_, _, _], h4 => simp at h4
      | _ :: _ :: _ :: _ :: _, _ => rw [rd32_cons] at e; cases e
    | ok v =>
      obtain ⟨z, r⟩ := v
      obtain ⟨rfl, _⟩ := Tree.rd32_inv e
      unfold parseHeader
      rw [e, Res.ok_bind]
      simp only [List.length_append, be_length] at h
      dsimp only
      generalize (if z = 0 then (if r.length + 4 < 4294967296 then r.length + 4 else 1) else z) = size
      rw [short_word r (by omega)]
      split
      · right; rfl
      · left; rfl

/-- Up to seven bytes after the last box, such as padding: the file is refused. -/
theorem c85_not_with_padding (inPlace : Bool) (bs : List (Box α)) (hg : ∀ b ∈ bs, b.Good K) (ho : Once bs) (tail : Bytes) (ht : tail ≠ [])
    (hl : tail.length < 8) : boxes K inPlace (fileOf bs ++ tail) = .err .ioErr ∨ boxes K inPlace (fileOf bs ++ tail) = .err .badData := by
  rcases short_header tail hl with h | h
  · left
    refine c85_damaged inPlace bs hg ho tail ht _ (by simp) ?_
    unfold parseAtom
    rw [h]
  · right
    refine c85_damaged inPlace bs hg ho tail ht _ (by simp) ?_
    unfold parseAtom
    rw [h]

/-- The empty file. -/
theorem c85_empty (inPlace : Bool) : boxes K inPlace [] = .err .ioErr := rfl

/-! ## Any file -/

/-- No class leaves more bytes than it had. -/
def Forward (K : Kinds α) : Prop := ∀ h s x s', K.read h s = .ok (x, s') → s'.rest.length ≤ s.rest.length

theorem parseAtom_cases {β : Type} {body : Hdr → P β} {inp rest : Bytes} {t : β} {h : Hdr} (p : parseAtom body inp = .ok (t, h, rest)) :
    ∃ s k, parseHeader inp = .ok (h, inp.drop h.hlen) ∧ body h ⟨inp.drop h.hlen, h.hlen⟩ = .ok (t, s) ∧ rest = s.rest.drop k ∧
      ∀ (γ : Type) (body' : Hdr → P γ) (t' : γ), body' h ⟨inp.drop h.hlen, h.hlen⟩ = .ok (t', s) → parseAtom body' inp = .ok (t', h, rest) := by
  unfold parseAtom at p ⊢
  cases e1 : parseHeader inp with
  | err e => rw [e1] at p; cases p
  | ub => rw [e1] at p; cases p
  | ok hr =>
    obtain ⟨h', r⟩ := hr
    have hr := Mdat.parseHeader_drop e1
    subst hr
    rw [e1] at p
    dsimp only at p
    cases e2 : body h' ⟨inp.drop h'.hlen, h'.hlen⟩ with
    | err e => rw [e2] at p; cases p
    | ub => rw [e2] at p; cases p
    | ok ts =>
      obtain ⟨t', s⟩ := ts
      rw [e2] at p
      dsimp only at p
      injection p with p
      injection p with pa pb
      injection pb with pb pc
      subst pa
      subst pb
      refine ⟨s, _, rfl, e2, pc.symm, ?_⟩
      intro γ body' t' hb
      simp only [hb, pc]

/-- What is known of a box that was read: for media data, it is as `Mdat.parseBody` says, and the rest is after the data. -/
theorem top_cases (hK : Forward K) {pos : Nat} {file rest : Bytes} {t : Top α} {h : Hdr} (p : parseAtom (top K pos) (file.drop pos) = .ok (t, h, rest)) :
    pos + 8 ≤ file.length - rest.length ∧ rest.length ≤ file.length - pos ∧
      ∀ d, t = .mdat d → d.dataSize ≠ 0 → ParsedAt file pos d ∧ d.dataOffset + d.dataSize ≤ file.length - rest.length := by
  obtain ⟨s, k, h1, h2, h3, h4⟩ := parseAtom_cases p
  have h8 := ItemFile.hlen_pos h1
  have hl : 8 ≤ (file.drop pos).length := by
    by_cases hc : (file.drop pos).length < 8
    · rcases short_header _ hc with e | e <;> rw [e] at h1 <;> cases h1
    · omega
  rw [List.length_drop] at hl
  have hrest : rest.length ≤ s.rest.length := by rw [h3, List.length_drop]; omega
  unfold top at h2
  by_cases hm : h.type = Mdat.typeMdat
  · rw [if_pos hm] at h2
    cases e : Mdat.parseBody pos h ⟨(file.drop pos).drop h.hlen, h.hlen⟩ with
    | err x => simp only [Functor.map, e] at h2; cases h2
    | ub => simp only [Functor.map, e] at h2; cases h2
    | ok v =>
      obtain ⟨d, s'⟩ := v
      simp only [Functor.map, e] at h2
      injection h2 with h2
      injection h2 with h2 h2'
      subst h2
      subst h2'
      have hs : s'.rest.length + d.dataSize ≤ ((file.drop pos).drop h.hlen).length := by
        unfold Mdat.parseBody at e
        generalize Mdat.bytesToRead h h.hlen = n at e
        by_cases c1 : n >>> 31 > 0
        · rw [if_pos c1, P.bind_apply] at e
          unfold Mdat.skipData at e
          dsimp only at e
          by_cases c2 : ((file.drop pos).drop h.hlen).length < n
          · rw [if_pos c2] at e; cases e
          · rw [if_neg c2] at e
            injection e with e
            injection e with e e'
            subst e
            subst e'
            simp only [List.length_drop]
            omega
        · rw [if_neg c1] at e
          by_cases c3 : n > 0
          · rw [if_pos c3, P.bind_apply] at e
            unfold getBytes at e
            dsimp only at e
            by_cases c2 : ((file.drop pos).drop h.hlen).length < n
            · rw [if_pos c2] at e; cases e
            · rw [if_neg c2] at e
              injection e with e
              injection e with e e'
              subst e
              subst e'
              simp only [List.length_drop] at c2 ⊢
              omega
          · rw [if_neg c3] at e
            injection e with e
            injection e with e e'
            subst e
            subst e'
            simp [Mdat.create]
      simp only [List.length_drop] at hs
      refine ⟨by omega, by omega, ?_⟩
      intro d' hd h0
      injection hd with hd
      subst hd
      have hp := h4 _ (Mdat.parseBody pos) d e
      have ho := Movie.parseBody_offset e h0
      dsimp only at ho
      refine ⟨⟨h0, h, rest, hp⟩, ?_⟩
      omega
  · rw [if_neg hm] at h2
    cases e : K.read h ⟨(file.drop pos).drop h.hlen, h.hlen⟩ with
    | err x => simp only [Functor.map, e] at h2; cases h2
    | ub => simp only [Functor.map, e] at h2; cases h2
    | ok v =>
      obtain ⟨d, s'⟩ := v
      simp only [Functor.map, e] at h2
      injection h2 with h2
      injection h2 with h2 h2'
      subst h2
      subst h2'
      have hs := hK _ _ _ _ e
      simp only [List.length_drop] at hs
      refine ⟨by omega, by omega, ?_⟩
      intro d' hd
      cases hd

/-- The number of rounds that `boxes` allows the loop is enough: more make no difference. -/
theorem c85_rounds (hK : Forward K) (inPlace : Bool) (file : Bytes) : ∀ (n m pos : Nat) (o : Boxes α), file.length - pos < n → file.length - pos < m →
    loop K inPlace file n pos o = loop K inPlace file m pos o
  | 0, _, _, _, h, _ => by omega
  | _ + 1, 0, _, _, _, h => by omega
  | n + 1, m + 1, pos, o, h, h' => by
    rw [loop, loop]
    split
    · rfl
    · rfl
    · rfl
    · next t hd r e =>
      have hc := (top_cases hK e).1
      cases put inPlace pos hd.type t o with
      | err _ => rfl
      | ub => rfl
      | ok o' =>
        simp only [Res.bind]
        split
        · rfl
        · exact c85_rounds hK inPlace file n m _ o' (by omega) (by omega)

theorem inOrder_snoc {file : Bytes} {pos : Nat} {d : Mdat.T} (hd : ParsedAt file pos d) : ∀ (xs : List Mdat.T) (lo : Nat), InOrder file lo xs → lo ≤ pos →
    (∀ u ∈ xs, u.dataOffset + u.dataSize ≤ pos) → InOrder file lo (xs ++ [d])
  | [], _, _, hl, _ => ⟨pos, hl, hd, trivial⟩
  | u :: xs, lo, ⟨p, h1, h2, h3⟩, hl, ha =>
    ⟨p, h1, h2, inOrder_snoc hd xs _ h3 (ha u (by simp)) fun v hv => ha v (List.mem_cons_of_mem _ hv)⟩

theorem put_mdats {inPlace : Bool} {pos type : Nat} {t : Top α} {o o' : Boxes α} (h : put inPlace pos type t o = .ok o') :
    o'.mdats = o.mdats ∨ ∃ d, t = .mdat d ∧ d.dataSize ≠ 0 ∧ inPlace = false ∧ o'.mdats = o.mdats ++ [d] := by
  unfold put at h
  cases t with
  | mdat d =>
    simp only at h
    split at h
    · injection h with h; subst h; left; rfl
    · next c =>
      injection h with h
      subst h
      right
      simp only [Bool.or_eq_true, decide_eq_true_eq, not_or, Bool.not_eq_true] at c
      exact ⟨d, rfl, c.2, c.1, rfl⟩
  | other x =>
    left
    have key : ∀ (o1 : Option α) (f : Option α → Boxes α), (once o1 x).bind (fun v => .ok (f v)) = .ok o' → (∀ v, (f v).mdats = o.mdats) →
        o'.mdats = o.mdats := by
      intro o1 f h hf
      cases o1 with
      | none => simp only [once, Res.bind] at h; injection h with h; rw [← h]; exact hf _
      | some _ => cases h
    simp only at h
    split at h
    · exact key _ _ h fun _ => rfl
    split at h
    · injection h with h; subst h; rfl
    split at h
    · exact key _ _ h fun _ => rfl
    split at h
    · exact key _ _ h fun _ => rfl
    split at h
    · exact key _ _ h fun _ => rfl
    split at h
    · exact key _ _ h fun _ => rfl
    split at h
    · exact key _ _ h fun _ => rfl
    injection h with h
    subst h
    rfl

theorem loop_order (hK : Forward K) (inPlace : Bool) (file : Bytes) : ∀ (n pos : Nat) (o r : Boxes α), loop K inPlace file n pos o = .ok r →
    InOrder file 0 o.mdats → (∀ u ∈ o.mdats, u.dataOffset + u.dataSize ≤ pos) → (inPlace = true → o.mdats = []) →
    InOrder file 0 r.mdats ∧ (inPlace = true → r.mdats = [])
  | 0, _, _, _, h, _, _, _ => by cases h
  | n + 1, pos, o, r, h, h1, h2, h3 => by
    rw [loop] at h
    split at h
    · injection h with h; subst h; exact ⟨h1, h3⟩
    · cases h
    · cases h
    · next t hd rest e =>
      obtain ⟨c1, c2, c3⟩ := top_cases hK e
      cases e2 : put inPlace pos hd.type t o with
      | err _ => rw [e2] at h; cases h
      | ub => rw [e2] at h; cases h
      | ok o' =>
        rw [e2] at h
        simp only [Res.bind] at h
        have hi : InOrder file 0 o'.mdats ∧ (∀ u ∈ o'.mdats, u.dataOffset + u.dataSize ≤ file.length - rest.length) ∧
            (inPlace = true → o'.mdats = []) := by
          rcases put_mdats e2 with e3 | ⟨d, rfl, h0, hp, e3⟩
          · rw [e3]
            exact ⟨h1, fun u hu => by have := h2 u hu; omega, h3⟩
          · obtain ⟨c4, c5⟩ := c3 d rfl h0
            rw [e3]
            refine ⟨inOrder_snoc c4 _ _ h1 (by omega) h2, ?_, fun hc => by rw [hp] at hc; cases hc⟩
            intro u hu
            rcases List.mem_append.mp hu with hu | hu
            · have := h2 u hu; omega
            · simp only [List.mem_singleton] at hu
              subst hu
              exact c5
        split at h
        · injection h with h; subst h; exact ⟨hi.1, hi.2.2⟩
        · exact loop_order hK inPlace file n _ o' r h hi.1 hi.2.1 hi.2.2

/-- For any file for which the loop comes to its end, whatever is in it: the media data boxes that were kept are boxes of the file, one after the other,
with the bytes of the file; none if the file is opened in place. -/
theorem c85_data_of_file (hK : Forward K) (inPlace : Bool) (file : Bytes) (o : Boxes α) (h : boxes K inPlace file = .ok o) :
    InOrder file 0 o.mdats ∧ (inPlace = true → o.mdats = []) := by
  unfold boxes at h
  cases e : loop K inPlace file (file.length + 1) 0 {} with
  | err _ => rw [e] at h; cases h
  | ub => rw [e] at h; cases h
  | ok r =>
    rw [e] at h
    simp only [Res.bind] at h
    split at h
    · cases h
    · injection h with h
      subst h
      exact loop_order hK inPlace file _ _ _ _ e trivial (by simp) (fun _ => rfl)

/-! ## Opening -/

theorem joinAll_mdats {o o' : Boxes α} (h : joinAll K o = .ok o') : o'.mdats = o.mdats ∧ o'.info = o.info := by
  unfold joinAll at h
  split at h
  · injection h with h; subst h; exact ⟨rfl, rfl⟩
  · cases e : FragSeq.merge (joinOne K) (o.moofs.map fun x => ⟨K.number x.2, x⟩) o.moov with
    | err _ => rw [e] at h; cases h
    | ub => rw [e] at h; cases h
    | ok m =>
      rw [e] at h
      simp only [Res.bind] at h
      cases m with
      | none => cases h
      | some m =>
        simp only at h
        cases e2 : K.duration m with
        | err _ => rw [e2] at h; cases h
        | ub => rw [e2] at h; cases h
        | ok m' =>
          rw [e2] at h
          injection h with h
          subst h
          exact ⟨rfl, rfl⟩

theorem same_data {junk : Nat → Nat → UInt8} : ∀ (more : List Mdat.T) (k : Nat) (m : Mdat.T) (ts : List Movie.Track) (l : List Iloc.Item)
    (r : Mdat.T × List Movie.Track) (q : Mdat.T × List Iloc.Item), Movie.mergeLoop junk k more m ts = .ok r → ItemFile.mergeLoop junk k more m l = .ok q →
    r.1 = q.1
  | [], _, _, _, _, _, _, h1, h2 => by
    injection h1 with h1
    injection h2 with h2
    subst h1
    subst h2
    rfl
  | s :: more, k, m, ts, l, r, q, h1, h2 => by
    rw [Movie.mergeLoop] at h1
    rw [ItemFile.mergeLoop] at h2
    generalize Movie.moved ts _ _ _ = x at h1
    cases x with
    | err _ => cases h1
    | ub => cases h1
    | ok ts' =>
      simp only [Res.bind] at h1
      cases e : Mdat.addMdat (junk k) m s with
      | err _ => rw [e] at h2; cases h2
      | ub => rw [e] at h2; cases h2
      | ok m' =>
        rw [e] at h1 h2
        exact same_data more (k + 1) m' ts' _ r q h1 h2

theorem merge_same_data {junk : Nat → Nat → UInt8} {first : Mdat.T} {more : List Mdat.T} {ts : List Movie.Track} {l : List Iloc.Item}
    {r : Mdat.T × List Movie.Track} {q : Mdat.T × List Iloc.Item} (h1 : Movie.merge junk first more ts = .ok r)
    (h2 : ItemFile.merge junk first more l = .ok q) : r.1 = q.1 := by
  unfold Movie.merge at h1
  unfold ItemFile.merge at h2
  split at h2
  · cases h2
  · next hc =>
    rw [if_neg hc] at h1
    generalize Movie.moved ts _ _ _ = x at h1
    cases x with
    | err _ => cases h1
    | ub => cases h1
    | ok ts' => exact same_data more 0 first ts' _ r q h1 h2

/-- The tracks of the movie and the items of the meta box, as the file has them (with the fragments joined to the movie). -/
def Opened.before (K : Kinds α) (R : Opened α) : List Movie.Track × List Iloc.Item :=
  ((R.boxes.moov.map K.tracks).getD [], (R.boxes.info.map K.items).getD [])

theorem opened_cases (hK : Forward K) {junk : Nat → Nat → UInt8} {inPlace : Bool} {file : Bytes} {R : Opened α} (h : openFile K junk inPlace file = .ok R) :
    InOrder file 0 R.boxes.mdats ∧ (inPlace = true → R.boxes.mdats = []) ∧
      ((R.boxes.mdats = [] ∧ R.data = none ∧ (R.tracks, R.items) = R.before K) ∨
       ∃ first more m, R.boxes.mdats = first :: more ∧ R.data = some m ∧ Movie.merge junk first more (R.before K).1 = .ok (m, R.tracks) ∧
        ItemFile.merge junk first more (R.before K).2 = .ok (m, R.items)) := by
  unfold openFile at h
  cases e : boxes K inPlace file with
  | err _ => rw [e] at h; cases h
  | ub => rw [e] at h; cases h
  | ok o =>
    rw [e] at h
    simp only [Res.bind] at h
    cases e2 : joinAll K o with
    | err _ => rw [e2] at h; cases h
    | ub => rw [e2] at h; cases h
    | ok o' =>
      rw [e2] at h
      simp only at h
      obtain ⟨h1, h2⟩ := c85_data_of_file hK inPlace file o e
      rw [← (joinAll_mdats e2).1] at h1 h2
      unfold mergeData at h
      split at h
      · next hm =>
        injection h with h
        subst h
        exact ⟨h1, h2, Or.inl ⟨hm, rfl, rfl⟩⟩
      · next first more hm =>
        cases e3 : Movie.merge junk first more ((o'.moov.map K.tracks).getD []) with
        | err _ => rw [e3] at h; cases h
        | ub => rw [e3] at h; cases h
        | ok r =>
          rw [e3] at h
          simp only [Res.bind] at h
          cases e4 : ItemFile.merge junk first more ((o'.info.map K.items).getD []) with
          | err _ => rw [e4] at h; cases h
          | ub => rw [e4] at h; cases h
          | ok q =>
            rw [e4] at h
            simp only at h
            injection h with h
            subst h
            refine ⟨h1, h2, Or.inr ⟨first, more, r.1, hm, rfl, e3, ?_⟩⟩
            rw [merge_same_data e3 e4]
            exact e4

/-- **C85, in part.** Any file smaller than 2 GiB that opens, whatever is in it, and whose classes keep to the bytes they have:
* opened in place, or without media data, there is no data, and the places of tracks and items are as in the file;
* else for each chunk of each track that is in this file, and in one of the media data boxes, reading at its new place gives the bytes of the file, and
  other chunks stay. -/
theorem c85_tracks_partial (hK : Forward K) (junk : Nat → Nat → UInt8) (inPlace : Bool) (file : Bytes) (hfile : file.length < 2 ^ 31) (R : Opened α)
    (h : openFile K junk inPlace file = .ok R) (hwf : ∀ t ∈ (R.before K).1, t.WF) :
    (R.boxes.mdats = [] → R.data = none ∧ (R.tracks, R.items) = R.before K) ∧ (inPlace = true → R.boxes.mdats = []) ∧
    (R.boxes.mdats ≠ [] → ∃ m, R.data = some m ∧ R.tracks.length = (R.before K).1.length ∧
      ∀ (i : Nat) (t t' : Movie.Track), (R.before K).1[i]? = some t → R.tracks[i]? = some t' → Movie.SameBut t t' ∧
        ∀ (c : Nat) (d : Nat × Nat) (o : Nat), t.chunks[c]? = some d → t.offsets[c]? = some o →
          ∃ o', t'.offsets[c]? = some o' ∧
            (∀ u ∈ R.boxes.mdats, t.inFile d.2 = true → u.dataOffset ≤ o → ∀ k, 0 < k → o + k ≤ u.dataOffset + u.dataSize →
              Mdat.copyData m o' k = .ok ((file.drop o).take k)) ∧
            ((t.inFile d.2 = false ∨ ∀ u ∈ R.boxes.mdats, ¬ (u.dataOffset ≤ o ∧ o < u.dataOffset + u.dataSize)) → o' = o)) := by
  obtain ⟨h1, h2, h3⟩ := opened_cases hK h
  refine ⟨fun hm => ?_, h2, fun hm => ?_⟩
  · rcases h3 with h3 | ⟨first, more, m, h3, _⟩
    · exact h3.2
    · rw [hm] at h3; cases h3
  · rcases h3 with h3 | ⟨first, more, m, h3, h4, h5, _⟩
    · exact absurd h3.1 hm
    · rw [h3] at h1 ⊢
      obtain ⟨m', ts', e1, e2, e3⟩ := Movie.c27_merge_keeps_bytes file hfile first more h1 (R.before K).1 hwf junk
      rw [h5] at e1
      injection e1 with e1
      injection e1 with e1 e1'
      subst e1
      subst e1'
      exact ⟨m, h4, e2, e3⟩

/-- And the items of the meta box are read as the file says, as far as C84 goes. -/
theorem c85_items_partial (hK : Forward K) (junk : Nat → Nat → UInt8) (inPlace : Bool) (f : ItemFile.File) (hfile : f.bytes.length < 2 ^ 31) (R : Opened α)
    (h : openFile K junk inPlace f.bytes = .ok R) (hm : R.boxes.mdats ≠ []) (hi : f.items = (R.before K).2) (idat : Option Bytes) (refs : Iref.S)
    (hd : ∀ a ∈ f.items, a.method = 1 → idat = some f.idat) (hdl : f.idat.length < 2 ^ 32)
    (hr : ∀ a ∈ f.items, a.method = 2 → Iref.getReferences refs a.id (fcc 'i' 'l' 'o' 'c') = .ok (f.refs a.id) ∧ ∀ i ∈ f.refs a.id, i < 65536) :
    ∀ n (i : Nat) a D, f.items[i]? = some a → ItemFile.Proper f R.boxes.mdats n a → ItemFile.means n f a = some D →
      ∃ a', R.items[i]? = some a' ∧ a'.id = a.id ∧ ItemFile.getData n ⟨R.items, idat, refs, R.data⟩ a' = .ok D := by
  obtain ⟨h1, h2, h3⟩ := opened_cases hK h
  rcases h3 with h3 | ⟨first, more, m, h3, h4, _, h5⟩
  · exact absurd h3.1 hm
  · rw [h3] at h1 ⊢
    obtain ⟨m', items, e1, e2⟩ := ItemFile.c84_open_partial f hfile junk first more h1 idat refs hd hdl hr
    rw [hi, h5] at e1
    injection e1 with e1
    injection e1 with e1 e1'
    subst e1
    subst e1'
    rw [h4]
    exact e2

theorem open_of_boxes (junk : Nat → Nat → UInt8) {inPlace : Bool} {file : Bytes} {o o' : Boxes α} (hfile : file.length < 2 ^ 31)
    (hb : boxes K inPlace file = .ok o) (hj : joinAll K o = .ok o') (hi : InOrder file 0 o.mdats) (hw : ∀ t ∈ (o'.moov.map K.tracks).getD [], t.WF) :
    ∃ R, openFile K junk inPlace file = .ok R ∧ R.boxes = o' := by
  unfold openFile
  rw [hb]
  simp only [Res.bind, hj]
  rw [← (joinAll_mdats hj).1] at hi
  unfold mergeData
  split
  · exact ⟨_, rfl, rfl⟩
  · next first more he =>
    rw [he] at hi
    obtain ⟨m, ts', e1, _⟩ := Movie.c27_merge_keeps_bytes _ hfile first more hi _ hw junk
    obtain ⟨m', e2, _⟩ := ItemFile.merge_ok _ hfile junk ((o'.info.map K.items).getD []) first more hi
    rw [e1]
    simp only [Res.bind, e2]
    exact ⟨_, rfl, rfl⟩

/-- A file made of boxes that can be read, with a movie box or a file type box, and without fragments, opens, and what is found is what is in it. -/
theorem c85_opens (hK : Forward K) (junk : Nat → Nat → UInt8) (inPlace : Bool) (bs : List (Box α)) (hg : ∀ b ∈ bs, b.Good K) (ho : Once bs)
    (hm : ∃ b ∈ bs, b.type = fcc 'm' 'o' 'o' 'v' ∨ b.type = fcc 'f' 't' 'y' 'p') (hf : ∀ b ∈ bs, b.type ≠ fcc 'm' 'o' 'o' 'f')
    (hfile : (fileOf bs).length < 2 ^ 31) (hwf : ∀ x, the (fcc 'm' 'o' 'o' 'v') bs = some x → ∀ t ∈ K.tracks x, t.WF) :
    ∃ R, openFile K junk inPlace (fileOf bs) = .ok R ∧ R.boxes = meaning inPlace bs := by
  have hb := c85_boxes (K := K) inPlace bs hg ho hm
  have hi := (c85_data_of_file hK inPlace (fileOf bs) _ hb).1
  have hmo : (meaning inPlace bs).moofs = [] := by
    show (placed 0 bs).filterMap fragmentOf = []
    have : ∀ (bs : List (Box α)) (pos : Nat), (∀ b ∈ bs, b.type ≠ fcc 'm' 'o' 'o' 'f') → (placed pos bs).filterMap fragmentOf = [] := by
      intro bs
      induction bs with
      | nil => intro _ _; rfl
      | cons b bs ih =>
        intro pos h
        have hb : fragmentOf (pos, b) = none := if_neg (h b (by simp))
        simp only [placed, List.filterMap_cons, hb]
        exact ih _ fun c hc => h c (List.mem_cons_of_mem _ hc)
    exact this bs 0 hf
  have hj : joinAll K (meaning inPlace bs) = .ok (meaning inPlace bs) := by
    unfold joinAll
    rw [hmo]
    rfl
  refine open_of_boxes junk hfile hb hj hi ?_
  intro t ht
  have e : (meaning inPlace bs).moov = the (fcc 'm' 'o' 'o' 'v') bs := rfl
  rw [e] at ht
  cases hx : the (fcc 'm' 'o' 'o' 'v') bs with
  | none => rw [hx] at ht; simp at ht
  | some x =>
    rw [hx] at ht
    exact hwf x hx t (by simpa using ht)

theorem joined_eq (K : Kinds α) : ∀ (xs : List (Nat × α)) (m : α),
    FragSeq.mergeAll (joinOne K) (xs.map fun x => ⟨K.number x.2, x⟩) (some m) = (joined K xs m).bind fun m' => .ok (some m')
  | [], _ => rfl
  | x :: xs, m => by
    rw [List.map_cons, FragSeq.mergeAll, joined]
    simp only [joinOne]
    cases K.join x.1 x.2 m with
    | err _ => rfl
    | ub => rfl
    | ok m' =>
      simp only [Res.bind]
      exact joined_eq K xs m'

/-- A movie with fragments, whose numbers increase: they are joined to the movie in the order of the file, the duration is computed, and the media data is
that of the whole file. -/
theorem c85_fragments (hK : Forward K) (junk : Nat → Nat → UInt8) (inPlace : Bool) (bs : List (Box α)) (hg : ∀ b ∈ bs, b.Good K) (ho : Once bs)
    (m m1 m2 : α) (hm : the (fcc 'm' 'o' 'o' 'v') bs = some m) (hf : (meaning inPlace bs).moofs ≠ []) (hn : Numbered K (meaning inPlace bs).moofs)
    (hj : joined K (meaning inPlace bs).moofs m = .ok m1) (hd : K.duration m1 = .ok m2) (hfile : (fileOf bs).length < 2 ^ 31)
    (hwf : ∀ t ∈ K.tracks m2, t.WF) :
    ∃ R, openFile K junk inPlace (fileOf bs) = .ok R ∧ R.boxes = { meaning inPlace bs with moov := some m2, moofs := [] } := by
  have hex : ∃ b ∈ bs, b.type = fcc 'm' 'o' 'o' 'v' ∨ b.type = fcc 'f' 't' 'y' 'p' := by
    unfold the at hm
    cases hx : bs.find? fun b => decide (b.type = fcc 'm' 'o' 'o' 'v') with
    | none => rw [hx] at hm; cases hm
    | some b => exact ⟨b, List.mem_of_find?_eq_some hx, Or.inl (by simpa using List.find?_some hx)⟩
  have hb := c85_boxes (K := K) inPlace bs hg ho hex
  have hi := (c85_data_of_file hK inPlace (fileOf bs) _ hb).1
  have hja : joinAll K (meaning inPlace bs) = .ok { meaning inPlace bs with moov := some m2, moofs := [] } := by
    unfold joinAll
    rw [if_neg (by simpa using hf)]
    obtain ⟨ns, h1, h2⟩ := hn
    have hm' : (meaning inPlace bs).moov = some m := hm
    rw [(FragSeq.c29_merge (joinOne K) _ _).1 ⟨ns, by rw [List.map_map]; exact h1, h2⟩, hm', joined_eq, hj]
    simp only [Res.bind, hd]
  refine open_of_boxes junk hfile hb hja hi ?_
  intro t ht
  exact hwf t (by simpa using ht)

/-- Fragments without a number, or with numbers that do not increase: the file does not open. -/
theorem c85_sequence (junk : Nat → Nat → UInt8) (inPlace : Bool) (file : Bytes) (o : Boxes α) (hb : boxes K inPlace file = .ok o)
    (hn : ¬ Numbered K o.moofs) (R : Opened α) : openFile K junk inPlace file ≠ .ok R := by
  intro h
  unfold openFile at h
  rw [hb] at h
  simp only [Res.bind] at h
  cases e : joinAll K o with
  | err _ => rw [e] at h; cases h
  | ub => rw [e] at h; cases h
  | ok o' =>
    unfold joinAll at e
    split at e
    · next he =>
      rw [List.isEmpty_iff.mp he] at hn
      exact hn ⟨[], rfl, List.Pairwise.nil⟩
    · cases e2 : FragSeq.merge (joinOne K) (o.moofs.map fun x => ⟨K.number x.2, x⟩) o.moov with
      | err _ => rw [e2] at e; cases e
      | ub => rw [e2] at e; cases e
      | ok s =>
        obtain ⟨ns, h1, h2⟩ := (FragSeq.c29_merge (joinOne K) _ _).2 ⟨s, e2⟩
        rw [List.map_map] at h1
        exact hn ⟨ns, h1, h2⟩

/-- Fragments in a file without a movie box (a segment on its own, with its type box): the movie is used all the same. -/
theorem c85_not_fragments_alone (junk : Nat → Nat → UInt8) (inPlace : Bool) (bs : List (Box α)) (hg : ∀ b ∈ bs, b.Good K) (ho : Once bs)
    (hm : ∃ b ∈ bs, b.type = fcc 'f' 't' 'y' 'p') (hn : ∀ b ∈ bs, b.type ≠ fcc 'm' 'o' 'o' 'v')
    (b : Box α) (hb : bs.find? (fun b => b.type = fcc 'm' 'o' 'o' 'f') = some b) (n : Nat) (hx : K.number b.value = some n) (hx' : K.bare b.value = false) :
    openFile K junk inPlace (fileOf bs) = .ub := by
  obtain ⟨a, ha, e⟩ := hm
  unfold openFile
  rw [c85_boxes (K := K) inPlace bs hg ho ⟨a, ha, Or.inr e⟩]
  simp only [Res.bind]
  have hmo : ∃ pos rest, (meaning inPlace bs).moofs = (pos, b.value) :: rest := by
    show ∃ pos rest, (placed 0 bs).filterMap fragmentOf = (pos, b.value) :: rest
    have : ∀ (bs : List (Box α)) (pos : Nat), bs.find? (fun b => b.type = fcc 'm' 'o' 'o' 'f') = some b →
        ∃ pos' rest, (placed pos bs).filterMap fragmentOf = (pos', b.value) :: rest := by
      intro bs
      induction bs with
      | nil => intro _ h; cases h
      | cons c bs ih =>
        intro pos h
        by_cases hc : c.type = fcc 'm' 'o' 'o' 'f'
        · rw [List.find?_cons_of_pos (by simpa using hc)] at h
          injection h with h
          subst h
          have hb : fragmentOf (pos, c) = some (pos, c.value) := if_pos hc
          simp only [placed, List.filterMap_cons, hb]
          exact ⟨_, _, rfl⟩
        · rw [List.find?_cons_of_neg (by simpa using hc)] at h
          have hb : fragmentOf (pos, c) = none := if_neg hc
          simp only [placed, List.filterMap_cons, hb]
          exact ih _ h
    exact this bs 0 hb
  obtain ⟨pos, rest, hmo⟩ := hmo
  have hv : (meaning inPlace bs).moov = none := the_none hn
  unfold joinAll
  rw [hmo, hv]
  unfold FragSeq.merge
  simp only [List.isEmpty_cons, Bool.false_eq_true, if_false, List.map_cons, FragSeq.mergeLoop, hx, joinOne, hx', Res.bind]

/-! ## Cases -/

/-- Classes that keep the payload. The first byte of a fragment is its number, and the rest its tracks; a movie has one track with two chunks, a meta box
one item. -/
def plain : Kinds Bytes where
  read h := fun s => getBytes (Mdat.declared h - s.read) s
  number x := x.head?.map (·.toNat)
  bare x := x.length ≤ 1
  join _ x m := .ok (m ++ x)
  duration := .ok
  tracks _ := [⟨[1], [1], [⟨1, 1, 1⟩], ⟨2, 16, [27, 65]⟩, 0, 0⟩]
  items _ := [⟨5, 0, 0, 65, some [⟨0, 0, 2⟩]⟩]

theorem plain_forward : Forward plain := by
  intro h s x s' e
  change getBytes (Mdat.declared h - s.read) s = .ok (x, s') at e
  unfold getBytes at e
  split at e
  · cases e
  · injection e with e
    injection e with _ e
    subst e
    simp

theorem plain_good (t : Nat) (long : Bool) (p : Bytes) (hp : p.length < 1000) (ht : t < 2 ^ 32) (hu : t ≠ fcc 'u' 'u' 'i' 'd') :
    Box.Good plain ⟨t, long, p, p⟩ := by
  refine ⟨?_, ht, hu, fun _ r => ?_⟩
  · show if long then 16 + p.length < 2 ^ 64 else 8 + p.length < 2 ^ 32
    split <;> omega
  · have : Mdat.declared (Box.hdr (⟨t, long, p, p⟩ : Box Bytes)) - Box.head (⟨t, long, p, p⟩ : Box Bytes) = p.length := by
      unfold Mdat.declared Box.hdr Box.head
      cases long
      · simp only [Bool.false_eq_true, if_false]
        rw [if_neg (by omega)]
        omega
      · simp
    show getBytes (Mdat.declared (Box.hdr (⟨t, long, p, p⟩ : Box Bytes)) - Box.head (⟨t, long, p, p⟩ : Box Bytes)) _ = _
    rw [this]
    exact parses_getBytes rfl r _

/-- A file type box, media data, free space, empty media data, a movie, media data with a long header, and a meta box. -/
def sample : List (Box Bytes) :=
  [⟨0x66747970, false, [1, 2], [1, 2]⟩, ⟨0x6d646174, false, [10, 11, 12], []⟩, ⟨0x66726565, false, [0], [0]⟩, ⟨0x6d646174, false, [], []⟩,
   ⟨0x6d6f6f76, false, [7], [7]⟩, ⟨0x6d646174, true, [20, 21, 22, 23], []⟩, ⟨0x6d657461, false, [], []⟩]

theorem sample_good : ∀ b ∈ sample, b.Good plain := by
  have hm : ∀ long p, Box.Good plain ⟨0x6d646174, long, p, []⟩ ∨ 1000 ≤ p.length := by
    intro long p
    by_cases h : p.length < 1000
    · left
      have := plain_good 0x6d646174 long p h (by decide) (by decide)
      exact ⟨this.size, this.type, this.plain, fun hc => absurd rfl hc⟩
    · right; omega
  intro b hb
  simp only [sample, List.mem_cons, List.not_mem_nil, or_false] at hb
  rcases hb with rfl | rfl | rfl | rfl | rfl | rfl | rfl
  · exact plain_good _ _ _ (by decide) (by decide) (by decide)
  · exact (hm _ _).resolve_right (by decide)
  · exact plain_good _ _ _ (by decide) (by decide) (by decide)
  · exact (hm _ _).resolve_right (by decide)
  · exact plain_good _ _ _ (by decide) (by decide) (by decide)
  · exact (hm _ _).resolve_right (by decide)
  · exact plain_good _ _ _ (by decide) (by decide) (by decide)

theorem sample_once : Once sample := by unfold Once; decide

theorem sample_meaning : meaning false sample =
    { ftyp := some [1, 2], moov := some [7], info := some [], mdats := [⟨some [10, 11, 12], 3, 3, 18⟩, ⟨some [20, 21, 22, 23], 4, 4, 63⟩] } := by
  decide +kernel

theorem sample_in_place : meaning true sample = { ftyp := some [1, 2], moov := some [7], info := some [] } := by decide +kernel

example : boxes plain false (fileOf sample) =
    .ok { ftyp := some [1, 2], moov := some [7], info := some [], mdats := [⟨some [10, 11, 12], 3, 3, 18⟩, ⟨some [20, 21, 22, 23], 4, 4, 63⟩] } :=
  (c85_boxes false sample sample_good sample_once ⟨_, List.mem_cons_self, Or.inr (by decide)⟩).trans (congrArg _ sample_meaning)

/-- Opened in place. -/
example : boxes plain true (fileOf sample) = .ok { ftyp := some [1, 2], moov := some [7], info := some [] } :=
  (c85_boxes true sample sample_good sample_once ⟨_, List.mem_cons_self, Or.inr (by decide)⟩).trans (congrArg _ sample_in_place)

/-- It opens, and the chunk at 65 of the file is read from the third byte of the second box. -/
example (junk : Nat → Nat → UInt8) : ∃ R m t' o', openFile plain junk false (fileOf sample) = .ok R ∧ R.data = some m ∧ R.tracks[0]? = some t' ∧
    t'.offsets[1]? = some o' ∧ Mdat.copyData m o' 2 = .ok [22, 23] := by
  have hwf : ∀ x, ∀ t ∈ plain.tracks x, t.WF := by
    intro x t ht
    simp only [plain, List.mem_singleton] at ht
    subst ht
    refine ⟨by decide, by decide, Or.inr ⟨by decide, ⟨?_, ?_, by decide, by decide⟩⟩, fun e he => ?_, by decide, by decide⟩
    · intro e he
      simp only [List.getElem?_cons_zero, Option.some.injEq] at he
      subst he
      rfl
    · intro i a b _ hb
      simp at hb
    · simp only [List.mem_singleton] at he
      subst he
      exact ⟨by decide, true, by decide⟩
  obtain ⟨R, h1, h2⟩ := c85_opens plain_forward junk false sample sample_good sample_once ⟨_, List.mem_cons_self, Or.inr (by decide)⟩ (by decide)
    (by decide) (fun x _ => hwf x)
  have hb : (R.before plain).1 = [⟨[1], [1], [⟨1, 1, 1⟩], ⟨2, 16, [27, 65]⟩, 0, 0⟩] := by
    unfold Opened.before
    rw [h2, sample_meaning]
    rfl
  obtain ⟨_, _, h3⟩ := c85_tracks_partial plain_forward junk false _ (by decide) R h1 (by
    rw [hb]; exact hwf [7])
  obtain ⟨m, h4, h5, h6⟩ := h3 (by rw [h2, sample_meaning]; simp)
  rw [hb] at h5 h6
  obtain ⟨t', ht'⟩ : ∃ t', R.tracks[0]? = some t' := ⟨_, List.getElem?_eq_getElem (by rw [h5]; decide)⟩
  obtain ⟨_, h7⟩ := h6 0 _ t' rfl ht'
  obtain ⟨o', h8, h9, _⟩ := h7 1 (1, 1) 65 (by decide) (by decide)
  refine ⟨R, m, t', o', h1, h4, ht', h8, ?_⟩
  have := h9 ⟨some [20, 21, 22, 23], 4, 4, 63⟩ (by rw [h2, sample_meaning]; simp) (by decide) (by decide) 2 (by decide) (by decide)
  rw [this]
  decide

theorem sample_proper : ItemFile.Proper ⟨fileOf sample, [⟨5, 0, 0, 65, some [⟨0, 0, 2⟩]⟩], [], fun _ => []⟩
    [⟨some [10, 11, 12], 3, 3, 18⟩, ⟨some [20, 21, 22, 23], 4, 4, 63⟩] 1 ⟨5, 0, 0, 65, some [⟨0, 0, 2⟩]⟩ := by
  refine ⟨rfl, fun D h => ?_, Or.inl ⟨rfl, Or.inr ⟨⟨some [20, 21, 22, 23], 4, 4, 63⟩, by simp, by decide, ?_, ?_⟩⟩⟩
  · have : ItemFile.means 1 ⟨fileOf sample, [⟨5, 0, 0, 65, some [⟨0, 0, 2⟩]⟩], [], fun _ => []⟩ ⟨5, 0, 0, 65, some [⟨0, 0, 2⟩]⟩ = some [22, 23] := by
      decide +kernel
    rw [this] at h
    injection h with h
    subst h
    decide
  · simp
  · simp [ItemFile.Within]

/-- The item at 65 of the file. -/
example (junk : Nat → Nat → UInt8) (R : Opened Bytes) (h : openFile plain junk false (fileOf sample) = .ok R) (h2 : R.boxes = meaning false sample) :
    ∃ a', R.items[0]? = some a' ∧ ItemFile.getData 1 ⟨R.items, none, none, R.data⟩ a' = .ok [22, 23] := by
  obtain ⟨a', h3, _, h4⟩ := c85_items_partial plain_forward junk false
    ⟨fileOf sample, [⟨5, 0, 0, 65, some [⟨0, 0, 2⟩]⟩], [], fun _ => []⟩ (by decide +kernel) R h (by rw [h2, sample_meaning]; simp)
    (by unfold Opened.before; rw [h2, sample_meaning]; rfl) none none (by simp) (by decide) (by simp) 1 0 _ [22, 23] rfl
    (by rw [h2, sample_meaning]; exact sample_proper) (by decide +kernel)
  exact ⟨a', h3, h4⟩

/-- Two movies; only media data; padding; a box cut short; the last box to the end of the file. -/
example : boxes plain false (fileOf (sample ++ [⟨0x6d6f6f76, false, [8], [8]⟩])) = .err .badData :=
  c85_twice false _ (fun b hb => by
    rcases List.mem_append.mp hb with hb | hb
    · exact sample_good b hb
    · simp only [List.mem_singleton] at hb
      subst hb
      exact plain_good _ _ _ (by decide) (by decide) (by decide)) (by unfold Once; decide)

example : boxes plain false (fileOf [⟨0x66726565, false, [0], [0]⟩]) = .err .badData :=
  c85_neither false [⟨0x66726565, false, [0], [0]⟩] (by simp) (fun b hb => by
    simp only [List.mem_singleton] at hb
    subst hb
    exact plain_good _ _ _ (by decide) (by decide) (by decide)) (by decide)

example : boxes plain false (fileOf sample ++ [0, 0, 0, 0]) = .err .ioErr ∨ boxes plain false (fileOf sample ++ [0, 0, 0, 0]) = .err .badData :=
  c85_not_with_padding false sample sample_good sample_once [0, 0, 0, 0] (by simp) (by decide)

example : boxes plain false (fileOf sample ++ [0, 0, 0, 12, 0x66, 0x72, 0x65, 0x65, 1]) = .err .badData :=
  c85_damaged false sample sample_good sample_once _ (by simp) _ (by simp) rfl

example : boxes plain false (fileOf sample ++ [0, 0, 0, 0, 0x6d, 0x64, 0x61, 0x74, 30, 31]) =
    .ok (meaning false (sample ++ [⟨0x6d646174, false, [30, 31], []⟩])) :=
  c85_to_the_end false sample ⟨0x6d646174, false, [30, 31], []⟩ rfl (fun b hb => by
    rcases List.mem_append.mp hb with hb | hb
    · exact sample_good b hb
    · simp only [List.mem_singleton] at hb
      subst hb
      have := plain_good 0x6d646174 false [30, 31] (by decide) (by decide) (by decide)
      exact ⟨this.size, this.type, this.plain, fun hc => absurd rfl hc⟩) (by unfold Once; decide) ⟨_, List.mem_cons_self, Or.inr (by decide)⟩

/-- A file type box and a fragment. -/
example (junk : Nat → Nat → UInt8) : openFile plain junk false (fileOf [⟨0x66747970, false, [1], [1]⟩, ⟨0x6d6f6f66, false, [1, 2], [1, 2]⟩]) = .ub :=
  c85_not_fragments_alone junk false [⟨0x66747970, false, [1], [1]⟩, ⟨0x6d6f6f66, false, [1, 2], [1, 2]⟩] (fun b hb => by
    simp only [List.mem_cons, List.not_mem_nil, or_false] at hb
    rcases hb with rfl | rfl <;> exact plain_good _ _ _ (by decide) (by decide) (by decide)) (by unfold Once; decide) ⟨_, List.mem_cons_self, by decide⟩
    (by decide) ⟨0x6d6f6f66, false, [1, 2], [1, 2]⟩ (by decide) 1 (by decide) (by decide)

/-- A movie and two fragments, with the numbers 3 and 5, and with 5 and 5. -/
def withFragments (n : UInt8) : List (Box Bytes) :=
  [⟨0x6d6f6f76, false, [7], [7]⟩, ⟨0x6d6f6f66, false, [n, 1], [n, 1]⟩, ⟨0x6d646174, false, [10, 11], []⟩, ⟨0x6d6f6f66, false, [5, 2], [5, 2]⟩]

theorem withFragments_good (n : UInt8) : ∀ b ∈ withFragments n, b.Good plain := by
  intro b hb
  simp only [withFragments, List.mem_cons, List.not_mem_nil, or_false] at hb
  rcases hb with rfl | rfl | rfl | rfl
  · exact plain_good _ _ _ (by decide) (by decide) (by decide)
  · exact plain_good _ _ _ (by simp) (by decide) (by decide)
  · have := plain_good 0x6d646174 false [10, 11] (by decide) (by decide) (by decide)
    exact ⟨this.size, this.type, this.plain, fun hc => absurd rfl hc⟩
  · exact plain_good _ _ _ (by decide) (by decide) (by decide)

example (junk : Nat → Nat → UInt8) : ∃ R, openFile { plain with tracks := fun _ => [] } junk false (fileOf (withFragments 3)) = .ok R ∧
    R.boxes.moov = some [7, 3, 1, 5, 2] ∧ R.boxes.mdats.length = 1 := by
  have hm : (meaning false (withFragments 3)).moofs = [(9, [3, 1]), (29, [5, 2])] := by decide +kernel
  obtain ⟨R, h1, h2⟩ := c85_fragments (K := { plain with tracks := fun _ => [] }) plain_forward junk false (withFragments 3)
    (fun b hb => ⟨(withFragments_good 3 b hb).size, (withFragments_good 3 b hb).type, (withFragments_good 3 b hb).plain, (withFragments_good 3 b hb).reads⟩)
    (by unfold Once; decide) [7] [7, 3, 1, 5, 2] [7, 3, 1, 5, 2] (by decide +kernel) (by rw [hm]; simp) ⟨[3, 5], by rw [hm]; rfl, by decide⟩
    (by rw [hm]; rfl) rfl (by decide) (by simp)
  refine ⟨R, h1, by rw [h2], ?_⟩
  rw [h2]
  decide +kernel

example (junk : Nat → Nat → UInt8) (R : Opened Bytes) : openFile plain junk false (fileOf (withFragments 5)) ≠ .ok R := by
  have hm : (meaning false (withFragments 5)).moofs = [(9, [5, 1]), (29, [5, 2])] := by decide +kernel
  refine c85_sequence junk false _ _ (c85_boxes false _ (withFragments_good 5) (by unfold Once; decide) ⟨_, List.mem_cons_self, Or.inl (by decide)⟩) ?_ R
  rw [hm]
  rintro ⟨ns, h1, h2⟩
  match ns, h1 with
  | [a, b], h1 =>
    have h1 : [some 5, some 5] = [some a, some b] := h1
    simp only [List.cons.injEq, Option.some.injEq, and_true] at h1
    simp only [List.pairwise_cons, List.mem_singleton, forall_eq] at h2
    omega

end Verif.OpenFile
