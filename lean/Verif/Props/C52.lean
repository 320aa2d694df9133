import Verif.Props.C24
import Verif.Props.C34

/-!
# C52: the data of metadata items

Data put in the item data box is read back. Data put in the media data box is read back for one item
only: the one whose data comes first. For all others the offset of the first piece is added twice.
-/

namespace Verif.Meta

open Iloc (Item Extent)

/-! ## Specification -/

/-- New items, and data added to the item at place `i`, in the media data box or in the item data box. -/
inductive Op
  | new (r : Req)
  | media (i : Nat) (d : Bytes)
  | idat (i : Nat) (d : Bytes)

/-- The box after a call; a refused call changes nothing that matters here. -/
def after (junk : Nat → UInt8) (s : S) : Op → S
  | .new r => (ask s r).1
  | .media i d => match addExtent junk s i d with
    | .ok s' => s'
    | _ => s
  | .idat i d => match addIdatExtent s i d with
    | .ok s' => s'
    | _ => s

def afterAll (junk : Nat → UInt8) : List Op → S → S
  | [], s => s
  | op :: ops, s => afterAll junk ops (after junk s op)

/-- The data that an accepted call adds to the item at place `i`. -/
def got (junk : Nat → UInt8) (i : Nat) (s : S) : Op → Bytes
  | .new _ => []
  | .media j d => if j = i then (match addExtent junk s j d with | .ok _ => d | _ => []) else []
  | .idat j d => if j = i then (match addIdatExtent s j d with | .ok _ => d | _ => []) else []

/-- All the data added to the item at place `i`, in the order of the calls. -/
def given (junk : Nat → UInt8) (i : Nat) : List Op → S → Bytes
  | [], _ => []
  | op :: ops, s => got junk i s op ++ given junk i ops (after junk s op)

/-- Number of bytes that the calls may add to the media data box, and to the item data box. -/
def mediaBytes : List Op → Nat
  | [] => 0
  | .media _ d :: ops => d.length + mediaBytes ops
  | _ :: ops => mediaBytes ops
def idatBytes : List Op → Nat
  | [] => 0
  | .idat _ d :: ops => d.length + idatBytes ops
  | _ :: ops => idatBytes ops

/-- An item just made, without data. -/
def Fresh (s : S) (i : Nat) : Prop := ∃ id, s.list[i]? = some (newItem 0 0 id)

/-! ## Pieces -/

def slice (M : Bytes) (e : Extent) : Bytes := (M.drop e.offset).take e.length

/-- The pieces `es` of `M` make up `D`. -/
structure Slices (M : Bytes) (es : List Extent) (D : Bytes) : Prop where
  data : es.flatMap (slice M) = D
  within : ∀ e ∈ es, e.offset + e.length ≤ M.length
  some : ∀ e ∈ es, e.length ≠ 0

theorem slices_nil (M : Bytes) : Slices M [] [] := ⟨rfl, by simp, by simp⟩

theorem flatMap_congr {α β : Type} {l : List α} {f g : α → List β} (h : ∀ a ∈ l, f a = g a) :
    l.flatMap f = l.flatMap g := by
  induction l with
  | nil => rfl
  | cons a l ih =>
    rw [List.flatMap_cons, List.flatMap_cons, h a List.mem_cons_self, ih fun b hb => h b (List.mem_cons_of_mem _ hb)]

theorem Slices.grow {M D : Bytes} {es : List Extent} (h : Slices M es D) (x : Bytes) : Slices (M ++ x) es D := by
  refine ⟨?_, ?_, h.some⟩
  · rw [← h.data]
    refine flatMap_congr fun e he => ?_
    have := h.within e he
    unfold slice
    rw [List.drop_append_of_le_length (by omega), List.take_append_of_le_length (by rw [List.length_drop]; omega)]
  · intro e he
    have := h.within e he
    rw [List.length_append]
    omega

theorem Slices.push {M D x : Bytes} {es : List Extent} (h : Slices M es D) (hx : x ≠ []) :
    Slices (M ++ x) (es ++ [⟨0, M.length, x.length⟩]) (D ++ x) := by
  have g := h.grow x
  refine ⟨?_, ?_, ?_⟩
  · rw [List.flatMap_append, g.data]
    simp [slice]
  · intro e he
    simp only [List.mem_append, List.mem_singleton] at he
    rcases he with he | rfl
    · exact g.within e he
    · simp
  · intro e he
    simp only [List.mem_append, List.mem_singleton] at he
    rcases he with he | rfl
    · exact h.some e he
    · simpa using hx

theorem extentLength_ok {total : Nat} {e : Extent} (h0 : e.length ≠ 0) (h : e.length < 4294967296) :
    extentLength total e = .ok e.length := by
  unfold extentLength
  rw [if_neg h0, if_neg]
  rw [Nat.shiftRight_eq_div_pow, Nat.div_eq_of_lt (by simpa using h)]
  simp

theorem readIdat_ok {M : Bytes} (hM : M.length < 4294967296) :
    ∀ {es : List Extent} {D : Bytes}, Slices M es D → readIdat M es = .ok D
  | [], D, h => by rw [← h.data]; rfl
  | e :: es, D, h => by
    have h1 := h.within e List.mem_cons_self
    have h2 := h.some e List.mem_cons_self
    have ih := readIdat_ok hM (es := es) (D := es.flatMap (slice M))
      ⟨rfl, fun e he => h.within e (List.mem_cons_of_mem _ he), fun e he => h.some e (List.mem_cons_of_mem _ he)⟩
    have hg : idatGet M e.offset e.length = .ok (slice M e) := by
      unfold idatGet
      have ho : e.offset % 4294967296 = e.offset := Nat.mod_eq_of_lt (by omega)
      rw [ho, if_neg (by omega), if_pos h1]
      rfl
    unfold readIdat
    rw [extentLength_ok h2 (by omega)]
    show ((idatGet M e.offset e.length).bind _) = _
    rw [hg, ih, ← h.data]
    rfl

theorem readMdat_ok {m : Mdat.T} {M : Bytes} (hm : Mdat.Holds m M) (hM : M.length < 4294967296) :
    ∀ {es : List Extent} {D : Bytes}, Slices M es D → readMdat m 0 es = .ok D
  | [], D, h => by rw [← h.data]; rfl
  | e :: es, D, h => by
    have h1 := h.within e List.mem_cons_self
    have h2 := h.some e List.mem_cons_self
    have ih := readMdat_ok hm hM (es := es) (D := es.flatMap (slice M))
      ⟨rfl, fun e he => h.within e (List.mem_cons_of_mem _ he), fun e he => h.some e (List.mem_cons_of_mem _ he)⟩
    have ho : (e.offset + 0) % 18446744073709551616 = e.offset := by omega
    have hg : Mdat.copyData m e.offset e.length = .ok (slice M e) :=
      Mdat.c24_copy_delivers hm (by omega) e.offset e.length (by omega) (by omega) (by omega) (by omega)
    unfold readMdat
    rw [extentLength_ok h2 (by omega)]
    show ((Mdat.copyData m ((e.offset + 0) % 18446744073709551616) e.length).bind _) = _
    rw [ho, hg, ih, ← h.data]
    rfl

/-! ## One call -/

theorem list_append {s : S} {i : Nat} {a b : Item} (h : s.list[i]? = some a) : (s.list ++ [b])[i]? = some a := by
  have hi : i < s.list.length := by
    rcases Nat.lt_or_ge i s.list.length with h' | h'
    · exact h'
    · rw [List.getElem?_eq_none h'] at h; cases h
  rw [List.getElem?_append_left hi, h]

theorem lt_of_getElem? {α : Type} {l : List α} {i : Nat} {a : α} (h : l[i]? = some a) : i < l.length := by
  rcases Nat.lt_or_ge i l.length with h' | h'
  · exact h'
  · rw [List.getElem?_eq_none h'] at h; cases h

/-- A new item leaves the others and the data alone. -/
theorem new_keeps (s : S) (r : Req) {i : Nat} {a : Item} (h : s.list[i]? = some a) :
    (ask s r).1.list[i]? = some a ∧ (ask s r).1.idat = s.idat ∧ (ask s r).1.mdat = s.mdat := by
  rw [ask_eq]
  rcases add_cases s r.base r.dref (r.id.getD s.next) with ⟨e, he⟩ | ⟨n, he, -⟩
  · rw [he]; exact ⟨h, rfl, rfl⟩
  · rw [he]; exact ⟨list_append h, rfl, rfl⟩

theorem media_step (junk : Nat → UInt8) (s : S) (j : Nat) (d : Bytes) (i : Nat) :
    (after junk s (.media j d) = s ∧ got junk i s (.media j d) = [] ∧
      ∀ a m, s.list[j]? = some a → a.dref = 0 → Mdat.addData junk s.mdat d ≠ .ok m) ∨
    ∃ a m, s.list[j]? = some a ∧ Mdat.addData junk s.mdat d = .ok m ∧
      after junk s (.media j d) = { s with
        mdat := m, items := some (s.list.set j (pushExtent a a.method ⟨0, s.mdat.dataSize, d.length⟩)) } ∧
      got junk i s (.media j d) = if j = i then d else [] := by
  simp only [after, got]
  cases hb : s.list[j]? with
  | none =>
    have e : addExtent junk s j d = .ub := by simp [addExtent, hb]
    left; rw [e]; simp
  | some b =>
    by_cases hd : b.dref = 0
    · cases hm : Mdat.addData junk s.mdat d with
      | ok m =>
        right
        have e : addExtent junk s j d = .ok { s with
            mdat := m, items := some (s.list.set j (pushExtent b b.method ⟨0, s.mdat.dataSize, d.length⟩)) } := by
          simp [addExtent, hb, hd, hm, Res.bind]
        exact ⟨b, m, rfl, rfl, by rw [e], by rw [e]⟩
      | err x =>
        have e : addExtent junk s j d = .err x := by simp [addExtent, hb, hd, hm, Res.bind]
        left; rw [e]; simp
      | ub =>
        have e : addExtent junk s j d = .ub := by simp [addExtent, hb, hd, hm, Res.bind]
        left; rw [e]; simp
    · have e : addExtent junk s j d = .err .badParam := by simp [addExtent, hb, hd]
      left; rw [e]
      refine ⟨rfl, by simp, ?_⟩
      intro a m ha h0
      injection ha with ha
      exact absurd (ha ▸ h0) hd

theorem idat_step (junk : Nat → UInt8) (s : S) (j : Nat) (d : Bytes) (i : Nat) :
    (after junk s (.idat j d) = s ∧ got junk i s (.idat j d) = [] ∧
      ∀ a, s.list[j]? = some a → a.extents.getD [] ≠ [] ∧ a.method ≠ 1) ∨
    ∃ a v, s.list[j]? = some a ∧
      after junk s (.idat j d) = { s with
        version := v, idat := some (s.idat.getD [] ++ d)
        items := some (s.list.set j (pushExtent a 1 ⟨0, (s.idat.getD []).length, d.length⟩)) } ∧
      got junk i s (.idat j d) = if j = i then d else [] := by
  simp only [after, got]
  cases hb : s.list[j]? with
  | none =>
    have e : addIdatExtent s j d = .ub := by simp [addIdatExtent, hb]
    left; rw [e]; simp
  | some b =>
    by_cases hd : (b.extents.getD []).length = 0
    · right
      refine ⟨b, 1, rfl, ?_⟩
      simp only [addIdatExtent, hb, hd, if_pos]
      exact ⟨trivial, trivial⟩
    · by_cases hm : b.method = 1
      · right
        refine ⟨b, s.version, rfl, ?_⟩
        simp only [addIdatExtent, hb, hd, if_neg, hm, ne_eq, not_true_eq_false, not_false_eq_true]
        exact ⟨trivial, trivial⟩
      · have e : addIdatExtent s j d = .err .badParam := by simp [addIdatExtent, hb, hd, hm]
        left; rw [e]
        refine ⟨rfl, by simp, ?_⟩
        intro a ha
        injection ha with ha
        subst ha
        exact ⟨fun h => hd (by rw [h]; rfl), hm⟩

theorem addExtent_ok {junk : Nat → UInt8} {s : S} {i : Nat} {a : Item} {d : Bytes} {m : Mdat.T}
    (ha : s.list[i]? = some a) (h0 : a.dref = 0) (hm : Mdat.addData junk s.mdat d = .ok m) :
    addExtent junk s i d = .ok { s with
      mdat := m, items := some (s.list.set i (pushExtent a a.method ⟨0, s.mdat.dataSize, d.length⟩)) } := by
  simp [addExtent, ha, h0, hm, Res.bind]

theorem given_one (junk : Nat → UInt8) (i : Nat) (a : Op) (s : S) : given junk i [a] s = got junk i s a := by
  simp [given]
theorem given_two (junk : Nat → UInt8) (i : Nat) (a b : Op) (s : S) :
    given junk i [a, b] s = got junk i s a ++ got junk i (after junk s a) b := by
  simp [given]
theorem afterAll_two (junk : Nat → UInt8) (a b : Op) (s : S) :
    afterAll junk [a, b] s = after junk (after junk s a) b := rfl

theorem media_ok {junk : Nat → UInt8} {s s' : S} {i : Nat} {d : Bytes} (h : addExtent junk s i d = .ok s') :
    after junk s (.media i d) = s' ∧ got junk i s (.media i d) = d := by
  simp [after, got, h]

/-! ## Data in the item data box -/

/-- The item at place `i` has the data `D`, in the item data box. -/
def InIdat (s : S) (i : Nat) (D : Bytes) : Prop :=
  ∃ a, s.list[i]? = some a ∧ Slices (s.idat.getD []) (a.extents.getD []) D ∧
    (a.extents.getD [] ≠ [] → a.method = 1 ∧ s.idat ≠ none) ∧ (a.extents.getD [] = [] → a.method = 0 ∧ a.dref = 0)

theorem InIdat.step (junk : Nat → UInt8) {s : S} {i : Nat} {D : Bytes} (h : InIdat s i D) (op : Op)
    (h1 : ∀ d, op ≠ .media i d) (h2 : op ≠ .idat i []) :
    InIdat (after junk s op) i (D ++ got junk i s op) ∧
      ((after junk s op).idat.getD []).length ≤ (s.idat.getD []).length + idatBytes [op] := by
  obtain ⟨a, ha, hs, hm, hn⟩ := h
  have hi := lt_of_getElem? ha
  cases op with
  | new r =>
    obtain ⟨k1, k2, -⟩ := new_keeps s r ha
    refine ⟨⟨a, k1, ?_, ?_, hn⟩, ?_⟩
    · show Slices ((ask s r).1.idat.getD []) _ (D ++ [])
      rw [k2, List.append_nil]; exact hs
    · show _ → _ ∧ (ask s r).1.idat ≠ none
      rw [k2]; exact hm
    · show ((ask s r).1.idat.getD []).length ≤ _
      rw [k2]; omega
  | media j d =>
    have hj : j ≠ i := fun e => h1 d (e ▸ rfl)
    rcases media_step junk s j d i with ⟨e1, e2, -⟩ | ⟨b, m, -, -, e1, e2⟩
    · rw [e1, e2, List.append_nil]; exact ⟨⟨a, ha, hs, hm, hn⟩, by omega⟩
    · rw [e1, e2, if_neg hj, List.append_nil]
      refine ⟨⟨a, ?_, hs, hm, hn⟩, by show (s.idat.getD []).length ≤ _; omega⟩
      show (s.list.set j _)[i]? = some a
      rw [List.getElem?_set_ne hj, ha]
  | idat j d =>
    rcases idat_step junk s j d i with ⟨e1, e2, -⟩ | ⟨b, v, hb, e1, e2⟩
    · rw [e1, e2, List.append_nil]; exact ⟨⟨a, ha, hs, hm, hn⟩, by omega⟩
    · rw [e1, e2]
      refine ⟨?_, by simp [idatBytes]⟩
      by_cases hj : j = i
      · subst hj
        have hd : d ≠ [] := fun e => h2 (e ▸ rfl)
        rw [hb] at ha
        injection ha with ha
        subst ha
        rw [if_pos rfl]
        refine ⟨_, List.getElem?_set_self hi, hs.push hd, ?_, ?_⟩
        · intro _; exact ⟨rfl, by simp⟩
        · intro h; simp [pushExtent] at h
      · rw [if_neg hj, List.append_nil]
        refine ⟨a, ?_, hs.grow d, fun h => ⟨(hm h).1, by simp⟩, hn⟩
        show (s.list.set j _)[i]? = some a
        rw [List.getElem?_set_ne hj, ha]

theorem InIdat.all (junk : Nat → UInt8) {i : Nat} : ∀ (ops : List Op) {s : S} {D : Bytes}, InIdat s i D →
    (∀ d, Op.media i d ∉ ops) → Op.idat i [] ∉ ops →
    InIdat (afterAll junk ops s) i (D ++ given junk i ops s) ∧
      ((afterAll junk ops s).idat.getD []).length ≤ (s.idat.getD []).length + idatBytes ops
  | [], s, D, h, _, _ => by
    show InIdat s i (D ++ []) ∧ _
    rw [List.append_nil]; exact ⟨h, Nat.le_add_right _ _⟩
  | op :: ops, s, D, h, h1, h2 => by
    obtain ⟨k1, k2⟩ := h.step junk op (fun d e => h1 d (e ▸ List.mem_cons_self)) (fun e => h2 (e ▸ List.mem_cons_self))
    obtain ⟨g1, g2⟩ := InIdat.all junk ops k1 (fun d e => h1 d (List.mem_cons_of_mem _ e))
      (fun e => h2 (List.mem_cons_of_mem _ e))
    have hb : idatBytes (op :: ops) = idatBytes [op] + idatBytes ops := by cases op <;> simp [idatBytes]
    refine ⟨?_, ?_⟩
    · show InIdat (afterAll junk ops (after junk s op)) i (D ++ (got junk i s op ++ given junk i ops (after junk s op)))
      rw [← List.append_assoc]; exact g1
    · show ((afterAll junk ops (after junk s op)).idat.getD []).length ≤ _
      omega

/-- **C52, item data box.** Whatever calls follow the making of an item, for it and for other items: if
its data is put in the item data box, in pieces that are not empty, reading it returns the pieces in
order. -/
theorem c52_item_data (junk : Nat → UInt8) (s : S) (i : Nat) (ops : List Op) (hf : Fresh s i)
    (h1 : ∀ d, Op.media i d ∉ ops) (h2 : Op.idat i [] ∉ ops)
    (hl : (s.idat.getD []).length + idatBytes ops < 2 ^ 32) :
    getItemData (afterAll junk ops s) i = .ok (given junk i ops s) := by
  obtain ⟨id, hid⟩ := hf
  have h0 : InIdat s i [] := ⟨_, hid, slices_nil _, by simp [newItem], by simp [newItem]⟩
  obtain ⟨⟨a, ha, hs, hm, hn⟩, hlen⟩ := h0.all junk ops h1 h2
  rw [List.nil_append] at hs
  unfold getItemData
  rw [ha]
  dsimp only
  by_cases he : a.extents.getD [] = []
  · obtain ⟨e1, e2⟩ := hn he
    rw [if_pos e1, if_pos e2, he]
    rw [he] at hs
    rw [← hs.data]
    rfl
  · obtain ⟨e1, e2⟩ := hm he
    rw [if_neg (by omega), if_pos e1]
    cases hd : (afterAll junk ops s).idat with
    | none => exact absurd hd e2
    | some M =>
      rw [hd] at hs hlen
      simp only [Option.getD_some] at hs hlen
      exact readIdat_ok (by omega) hs

/-! ## Data in the media data box -/

/-- The item at place `i` has the data `D` in the media data box, starting at its beginning. -/
def InMdat (s : S) (i : Nat) (M D : Bytes) : Prop :=
  Mdat.Holds s.mdat M ∧ ∃ a, s.list[i]? = some a ∧ a.method = 0 ∧ a.dref = 0 ∧ a.base = 0 ∧
    Slices M (a.extents.getD []) D ∧ ∃ e es, a.extents.getD [] = e :: es ∧ e.offset = 0

theorem addData_ok' (junk : Nat → UInt8) {m : Mdat.T} {M d : Bytes} (h : Mdat.Holds m M)
    (hl : (M ++ d).length < 9223372036854775808) : ∃ m', Mdat.addData junk m d = .ok m' ∧ m.dataSize = M.length := by
  have hb := h.bound (by rw [List.length_append] at hl; omega)
  obtain ⟨m', e, -⟩ := Mdat.addData_ok junk hb hl
  exact ⟨m', e, hb.size⟩

theorem InMdat.step (junk : Nat → UInt8) {s : S} {i : Nat} {M D : Bytes} (h : InMdat s i M D) (op : Op)
    (h1 : ∀ d, op ≠ .idat i d) (h2 : op ≠ .media i []) (hl : M.length + mediaBytes [op] < 9223372036854775808) :
    ∃ M', InMdat (after junk s op) i M' (D ++ got junk i s op) ∧ M'.length ≤ M.length + mediaBytes [op] := by
  obtain ⟨hM, a, ha, b1, b2, b3, hs, e, es, he, ho⟩ := h
  have hi := lt_of_getElem? ha
  cases op with
  | new r =>
    obtain ⟨k1, -, k2⟩ := new_keeps s r ha
    refine ⟨M, ⟨?_, a, k1, b1, b2, b3, ?_, e, es, he, ho⟩, by omega⟩
    · show Mdat.Holds (ask s r).1.mdat M
      rw [k2]; exact hM
    · show Slices M _ (D ++ [])
      rw [List.append_nil]; exact hs
  | idat j d =>
    have hj : j ≠ i := fun e => h1 d (e ▸ rfl)
    rcases idat_step junk s j d i with ⟨e1, e2, -⟩ | ⟨b, v, -, e1, e2⟩
    · rw [e1, e2, List.append_nil]; exact ⟨M, ⟨hM, a, ha, b1, b2, b3, hs, e, es, he, ho⟩, by omega⟩
    · rw [e1, e2, if_neg hj, List.append_nil]
      refine ⟨M, ⟨hM, a, ?_, b1, b2, b3, hs, e, es, he, ho⟩, by omega⟩
      show (s.list.set j _)[i]? = some a
      rw [List.getElem?_set_ne hj, ha]
  | media j d =>
    have hlen : mediaBytes [.media j d] = d.length := by simp [mediaBytes]
    rw [hlen] at hl ⊢
    obtain ⟨m', hm', hsz⟩ := addData_ok' junk (d := d) hM (by rw [List.length_append]; omega)
    rcases media_step junk s j d i with ⟨e1, e2, -⟩ | ⟨b, m, hb, hm, e1, e2⟩
    · rw [e1, e2, List.append_nil]; exact ⟨M, ⟨hM, a, ha, b1, b2, b3, hs, e, es, he, ho⟩, by omega⟩
    · rw [e1, e2]
      refine ⟨M ++ d, ⟨hM.add hm, ?_⟩, by rw [List.length_append]; omega⟩
      by_cases hj : j = i
      · subst hj
        have hd : d ≠ [] := fun e => h2 (e ▸ rfl)
        rw [hb] at ha
        injection ha with ha
        subst ha
        rw [if_pos rfl, hsz]
        refine ⟨_, List.getElem?_set_self hi, b1, b2, ?_, hs.push hd, e, es ++ [⟨0, M.length, d.length⟩], ?_, ho⟩
        · simp [pushExtent, he, b3]
        · simp [pushExtent, he]
      · rw [if_neg hj, List.append_nil]
        refine ⟨a, ?_, b1, b2, b3, hs.grow d, e, es, he, ho⟩
        show (s.list.set j _)[i]? = some a
        rw [List.getElem?_set_ne hj, ha]

theorem InMdat.all (junk : Nat → UInt8) {i : Nat} : ∀ (ops : List Op) {s : S} {M D : Bytes}, InMdat s i M D →
    (∀ d, Op.idat i d ∉ ops) → Op.media i [] ∉ ops → M.length + mediaBytes ops < 9223372036854775808 →
    ∃ M', InMdat (afterAll junk ops s) i M' (D ++ given junk i ops s) ∧ M'.length ≤ M.length + mediaBytes ops
  | [], s, M, D, h, _, _, _ => ⟨M, by show InMdat s i M (D ++ []); rw [List.append_nil]; exact h, Nat.le_add_right _ _⟩
  | op :: ops, s, M, D, h, h1, h2, hl => by
    have hb : mediaBytes (op :: ops) = mediaBytes [op] + mediaBytes ops := by cases op <;> simp [mediaBytes]
    obtain ⟨M1, k1, k2⟩ := h.step junk op (fun d e => h1 d (e ▸ List.mem_cons_self))
      (fun e => h2 (e ▸ List.mem_cons_self)) (by omega)
    obtain ⟨M2, g1, g2⟩ := InMdat.all junk ops k1 (fun d e => h1 d (List.mem_cons_of_mem _ e))
      (fun e => h2 (List.mem_cons_of_mem _ e)) (by omega)
    refine ⟨M2, ?_, by omega⟩
    show InMdat (afterAll junk ops (after junk s op)) i M2 (D ++ (got junk i s op ++ given junk i ops (after junk s op)))
    rw [← List.append_assoc]; exact g1

theorem readFirst_zero {m : Mdat.T} {e : Extent} {es : List Extent} (h : e.offset = 0) :
    readFirst m 0 (e :: es) = readMdat m 0 (e :: es) := by
  simp [readFirst, readMdat, h]

/-- **C52, media data box, in part.** The item whose data comes first in the media data box: whatever
calls follow, for it and for other items, reading it returns the pieces added to it, in order. Missing:
all other items, which are read from the wrong place, and pieces in both boxes. -/
theorem c52_media_data_partial (junk : Nat → UInt8) (s : S) (i : Nat) (d : Bytes) (ops : List Op) (hf : Fresh s i)
    (he : Mdat.Holds s.mdat []) (hd : d ≠ [])
    (h1 : ∀ d, Op.idat i d ∉ ops) (h2 : Op.media i [] ∉ ops) (hl : d.length + mediaBytes ops < 2 ^ 32) :
    getItemData (afterAll junk (.media i d :: ops) s) i = .ok (d ++ given junk i ops (after junk s (.media i d))) := by
  obtain ⟨id, hid⟩ := hf
  obtain ⟨m', hm', hsz⟩ := addData_ok' junk (d := d) he (by simp only [List.nil_append]; omega)
  have h0 : InMdat (after junk s (.media i d)) i d d := by
    rcases media_step junk s i d i with ⟨-, -, no⟩ | ⟨b, m, hb, hm, e1, -⟩
    · exact absurd hm' (no _ _ hid rfl)
    · rw [e1]
      rw [hb] at hid
      injection hid with hid
      subst hid
      have key : Slices d [⟨0, 0, d.length⟩] d := (slices_nil []).push hd
      rw [hsz]
      exact ⟨he.add hm, _, List.getElem?_set_self (lt_of_getElem? hb), rfl, rfl, by simp [pushExtent, newItem], key,
        _, [], rfl, rfl⟩
  obtain ⟨M, ⟨hM, a, ha, b1, b2, b3, hs, e, es, hes, ho⟩, hlen⟩ := h0.all junk ops h1 h2 (by omega)
  show getItemData (afterAll junk ops (after junk s (.media i d))) i = _
  unfold getItemData
  rw [ha]
  dsimp only
  rw [if_pos b1, if_pos b2, b3, hes, readFirst_zero ho, ← hes]
  exact readMdat_ok hM (by omega) hs

/-- An item with a single extent, anywhere in the media data box: its data is what the format says, the
bytes at the base plus the offset. -/
theorem c52_one_extent (s : S) (i : Nat) (a : Item) (e : Extent) (M : Bytes) (ha : s.list[i]? = some a)
    (h0 : a.method = 0) (h1 : a.dref = 0) (he : a.extents = some [e]) (hM : Mdat.Holds s.mdat M)
    (hl : M.length < 2 ^ 32) (hne : e.length ≠ 0) (hin : a.base + e.offset + e.length ≤ M.length) :
    getItemData s i = .ok ((M.drop (a.base + e.offset)).take e.length) := by
  have ho : (e.offset + a.base) % 18446744073709551616 = a.base + e.offset := by omega
  unfold getItemData
  rw [ha]
  dsimp only
  rw [if_pos h0, if_pos h1, he]
  show readFirst s.mdat a.base [e] = _
  unfold readFirst
  dsimp only
  rw [extentLength_ok hne (by omega)]
  show ((Mdat.copyData s.mdat ((e.offset + a.base) % 18446744073709551616) e.length).bind _) = _
  rw [ho, Mdat.c24_copy_delivers hM (by omega) _ _ (by omega) (by omega) (by omega) (by omega)]
  show Res.ok (_ ++ []) = _
  rw [List.append_nil]

/-! ## What fails -/

/-- With several extents the second one is looked for too early, by the offset of the first: this item
has base 1 and extents of one byte at 2 and 4, so the format says bytes 3 and 5; the library returns bytes
3 and 3. -/
theorem c52_base_and_offsets_fail : getItemData
    ⟨2, 0, some [⟨1, 0, 0, 1, some [⟨0, 2, 1⟩, ⟨0, 4, 1⟩]⟩], none, ⟨some [10, 11, 12, 13, 14, 15], 6, 6, 0⟩⟩ 0 =
    .ok [13, 13] := by decide

/-- Any other item cannot be read right after its first piece was added: the copy starts at twice the
offset of the piece, and so ends after the data. -/
theorem c52_second_item_fails (junk : Nat → UInt8) (s : S) (i : Nat) (M d : Bytes) (hf : Fresh s i)
    (hM : Mdat.Holds s.mdat M) (h0 : M ≠ []) (hd : d ≠ []) (hl : M.length + d.length < 2 ^ 32) :
    getItemData (after junk s (.media i d)) i = .err .badParam := by
  obtain ⟨id, hid⟩ := hf
  have hM0 := List.length_pos_iff.mpr h0
  have hd0 := List.length_pos_iff.mpr hd
  obtain ⟨m', hm', hsz⟩ := addData_ok' junk (d := d) hM (by rw [List.length_append]; omega)
  rcases media_step junk s i d i with ⟨-, -, no⟩ | ⟨b, m, hb, hm, e1, -⟩
  · exact absurd hm' (no _ _ hid rfl)
  · rw [hb] at hid
    injection hid with hid
    subst hid
    have hr := (hM.add hm).bound (by rw [List.length_append]; omega)
    have ha : (after junk s (.media i d)).list[i]? =
        some (pushExtent (newItem 0 0 id) 0 ⟨0, M.length, d.length⟩) := by
      rw [e1, hsz]; exact List.getElem?_set_self (lt_of_getElem? hb)
    have hmd : (after junk s (.media i d)).mdat = m := by rw [e1]
    have ho : (M.length + (0 + M.length) % 18446744073709551616) % 18446744073709551616 = 2 * M.length := by omega
    unfold getItemData
    rw [ha, hmd]
    show readFirst m ((0 + M.length) % 18446744073709551616) [⟨0, M.length, d.length⟩] = _
    unfold readFirst
    dsimp only
    rw [extentLength_ok (by show d.length ≠ 0; omega) (by show d.length < _; omega)]
    show ((Mdat.copyData m ((M.length + (0 + M.length) % 18446744073709551616) % 18446744073709551616) d.length).bind _) = _
    rw [ho, Mdat.copyData_cases hr (by rw [List.length_append]; omega) (by omega) (by omega),
      if_pos (.inl (by rw [List.length_append]; omega)), if_neg (by omega)]
    rfl

/-- A piece added to the media data box of an item that has data in the item data box is accepted, but
read from the item data box: 7 is returned instead of 8. -/
theorem c52_mixed_fails (junk : Nat → UInt8) :
    given junk 0 [.idat 0 [7], .media 0 [8]] (ask (create Mdat.create) ⟨none, 0, 0⟩).1 = [7, 8] ∧
    getItemData (afterAll junk [.idat 0 [7], .media 0 [8]] (ask (create Mdat.create) ⟨none, 0, 0⟩).1) 0 = .ok [7, 7] := by
  obtain ⟨m, hm, -⟩ := Mdat.addData_ok junk Mdat.rep_create (bs := [8]) (by decide)
  have e : (ask (create Mdat.create) ⟨none, 0, 0⟩).1 = ⟨2, 0, some [newItem 0 0 1], none, Mdat.create⟩ := by decide
  have e1 : after junk ⟨2, 0, some [newItem 0 0 1], none, Mdat.create⟩ (.idat 0 [7]) =
      ⟨2, 1, some [⟨1, 1, 0, 0, some [⟨0, 0, 1⟩]⟩], some [7], Mdat.create⟩ := rfl
  have e2 : addExtent junk ⟨2, 1, some [⟨1, 1, 0, 0, some [⟨0, 0, 1⟩]⟩], some [7], Mdat.create⟩ 0 [8] =
      .ok ⟨2, 1, some [⟨1, 1, 0, 0, some [⟨0, 0, 1⟩, ⟨0, 0, 1⟩]⟩], some [7], m⟩ :=
    addExtent_ok (a := ⟨1, 1, 0, 0, some [⟨0, 0, 1⟩]⟩) rfl rfl hm
  obtain ⟨f1, f2⟩ := media_ok e2
  rw [e, given_two, afterAll_two, e1, f1, f2]
  exact ⟨rfl, rfl⟩

/-! ## Examples -/

/-- Two items, made after each other. -/
def two : S := ⟨3, 0, some [newItem 0 0 1, newItem 0 0 2], none, Mdat.create⟩

example : afterAll (fun _ => 0) [.new ⟨none, 0, 0⟩, .new ⟨none, 0, 0⟩] (create Mdat.create) = two := by decide

example : Fresh two 1 ∧ Mdat.Holds two.mdat [] := ⟨⟨2, rfl⟩, .create⟩

/-- The second item, in three pieces between pieces of the first. -/
example : getItemData (afterAll (fun _ => 0)
    [.idat 1 [1, 2], .idat 0 [3], .idat 1 [4], .new ⟨some 9, 0, 0⟩, .idat 2 [5, 6], .idat 1 [7]] two) 1 =
    .ok [1, 2, 4, 7] := by decide

/-- Data is not refused, so that `given` is not empty. -/
theorem media_accepted (junk : Nat → UInt8) {s : S} {i : Nat} {a : Item} {M d : Bytes} (ha : s.list[i]? = some a)
    (h0 : a.dref = 0) (hM : Mdat.Holds s.mdat M) (hl : (M ++ d).length < 9223372036854775808) :
    got junk i s (.media i d) = d := by
  obtain ⟨m', hm', -⟩ := addData_ok' junk (d := d) hM hl
  rcases media_step junk s i d i with ⟨-, -, no⟩ | ⟨_, _, -, -, -, e⟩
  · exact absurd hm' (no _ _ ha h0)
  · rw [e, if_pos rfl]

/-- The state after the first piece. -/
def afterFirst (m : Mdat.T) : S := ⟨3, 0, some [newItem 0 0 1, ⟨2, 0, 0, 0, some [⟨0, 0, 2⟩]⟩], none, m⟩

theorem afterFirst_eq (junk : Nat → UInt8) : ∃ m, Mdat.Holds m [1, 2] ∧ after junk two (.media 1 [1, 2]) = afterFirst m := by
  obtain ⟨m, hm, -⟩ := addData_ok' junk (m := Mdat.create) .create (d := [1, 2]) (by decide)
  have h : addExtent junk two 1 [1, 2] = .ok (afterFirst m) := addExtent_ok (a := newItem 0 0 2) rfl rfl hm
  exact ⟨m, Mdat.Holds.add .create hm, (media_ok h).1⟩

example (junk : Nat → UInt8) : getItemData (afterAll junk (.media 1 [1, 2] :: [.media 1 [4]]) two) 1 = .ok [1, 2, 4] := by
  rw [c52_media_data_partial junk two 1 [1, 2] [.media 1 [4]] ⟨2, rfl⟩ .create (by decide) (by simp) (by simp) (by decide)]
  obtain ⟨m, hm, e⟩ := afterFirst_eq junk
  rw [e, given_one, media_accepted junk (a := ⟨2, 0, 0, 0, some [⟨0, 0, 2⟩]⟩) rfl rfl hm (by decide)]
  rfl

/-- A single extent of two bytes at 1 + 2. -/
example : ∃ m : Mdat.T, Mdat.Holds m [1, 2, 3, 4, 5] ∧
    getItemData ⟨2, 0, some [⟨1, 0, 0, 1, some [⟨0, 2, 2⟩]⟩], none, m⟩ 0 = .ok [4, 5] := by
  obtain ⟨m, hm, -⟩ := addData_ok' (fun _ => 0) (m := Mdat.create) .create (d := [1, 2, 3, 4, 5]) (by decide)
  have h := Mdat.Holds.add .create hm
  exact ⟨m, h, c52_one_extent _ 0 ⟨1, 0, 0, 1, some [⟨0, 2, 2⟩]⟩ ⟨0, 2, 2⟩ [1, 2, 3, 4, 5] rfl rfl rfl rfl h (by decide) (by decide) (by decide)⟩

end Verif.Meta
