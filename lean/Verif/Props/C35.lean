import Verif.Model.Iloc
import Verif.Lemmas.Auto

/-!
# C35: item locations survive being written and parsed
-/

namespace Verif.Iloc

/-! ## Specification -/

/-- Field sizes that the standard allows. -/
def Allowed (w : Widths) : Prop :=
  (w.offset = 0 ∨ w.offset = 4 ∨ w.offset = 8) ∧ (w.length = 0 ∨ w.length = 4 ∨ w.length = 8) ∧
  (w.base = 0 ∨ w.base = 4 ∨ w.base = 8) ∧ (w.index = 0 ∨ w.index = 4 ∨ w.index = 8)

/-- The extents of an item; a missing list is the same as an empty one. -/
def extentsOf (a : Item) : List Extent := a.extents.getD []

/-- Every value fits its field. -/
def Enough (w : Widths) (items : List Item) : Prop :=
  ∀ a ∈ items, a.base < 256 ^ w.base ∧
    ∀ e ∈ extentsOf a, e.offset < 256 ^ w.offset ∧ e.length < 256 ^ w.length ∧ e.index < 256 ^ w.index

/-- Layout (ISO/IEC 14496-12, 8.11.3). -/
def extentBytes (version : Nat) (w : Widths) (e : Extent) : Bytes :=
  (if version = 1 then be w.index e.index else []) ++ (be w.offset e.offset ++ be w.length e.length)

def itemBytes (version : Nat) (w : Widths) (a : Item) : Bytes :=
  be 2 a.id ++ ((if version = 1 then be 2 a.method else []) ++ (be 2 a.dref ++ (be w.base a.base ++
    (be 2 (extentsOf a).length ++ (extentsOf a).flatMap (extentBytes version w)))))

def layout (w : Widths) (b : Box) : Bytes :=
  fullBox (fcc 'i' 'l' 'o' 'c') b.version b.flags
    (be 1 (16 * w.offset + w.length) ++ (be 1 (16 * w.base + w.index) ++ (be 2 b.items.length ++
      b.items.flatMap (itemBytes b.version w))))

/-- Values in the range of their C types; the construction method and the extent indexes exist in
version 1 only. -/
structure ItemFits (version : Nat) (a : Item) : Prop where
  id : a.id < 2 ^ 16
  method : a.method < 2 ^ 8
  dref : a.dref < 2 ^ 16
  base : a.base < 2 ^ 64
  count : (extentsOf a).length < 2 ^ 16
  extents : ∀ e ∈ extentsOf a, e.offset < 2 ^ 64 ∧ e.length < 2 ^ 64 ∧ e.index < 2 ^ 64
  old : version ≠ 1 → a.method = 0 ∧ ∀ e ∈ extentsOf a, e.index = 0

/-- The item with its list of extents present, as the parser makes it. -/
def present (a : Item) : Item := { a with extents := some (extentsOf a) }

/-! ## The choice of the sizes -/

def Size (w : Nat) : Prop := w = 0 ∨ w = 4 ∨ w = 8

theorem size_pow {w : Nat} (h : Size w) : (w = 0 ∧ 256 ^ w = 1) ∨ (w = 4 ∧ 256 ^ w = 4294967296) ∨
    (w = 8 ∧ 256 ^ w = 18446744073709551616) := by
  rcases h with rfl | rfl | rfl <;> decide

theorem bump_size {w v : Nat} (h : Size w) : Size (bump w v) := by
  unfold bump
  split
  · exact .inr (.inr rfl)
  · split
    · exact .inr (.inl rfl)
    · exact h

theorem bump_le {w v : Nat} (h : Size w) : w ≤ bump w v := by
  unfold bump
  split
  · rcases h with h | h | h <;> omega
  · split <;> omega

theorem bump_fits {w v : Nat} (h : Size w) (hv : v < 2 ^ 64) : v < 256 ^ bump w v := by
  have e : v >>> 32 = v / 2 ^ 32 := Nat.shiftRight_eq_div_pow _ _
  rcases size_pow (bump_size (v := v) h) with ⟨h1, h2⟩ | ⟨h1, h2⟩ | ⟨h1, h2⟩ <;> rw [h2] <;>
    unfold bump at h1 <;> split at h1 <;> try omega
  all_goals split at h1 <;> omega

theorem pow_mono {a b v : Nat} (h : a ≤ b) (hv : v < 256 ^ a) : v < 256 ^ b :=
  Nat.lt_of_lt_of_le hv (Nat.pow_le_pow_right (by decide) h)

/-- Every size of `w'` is at least that of `w`. -/
def Le (w w' : Widths) : Prop :=
  w.offset ≤ w'.offset ∧ w.length ≤ w'.length ∧ w.base ≤ w'.base ∧ w.index ≤ w'.index

theorem Le.refl (w : Widths) : Le w w := ⟨Nat.le_refl _, Nat.le_refl _, Nat.le_refl _, Nat.le_refl _⟩

theorem Le.trans {a b c : Widths} (h : Le a b) (h' : Le b c) : Le a c :=
  ⟨Nat.le_trans h.1 h'.1, Nat.le_trans h.2.1 h'.2.1, Nat.le_trans h.2.2.1 h'.2.2.1, Nat.le_trans h.2.2.2 h'.2.2.2⟩

theorem extentWidths_spec {w : Widths} (hw : Allowed w) (e : Extent) :
    Allowed (extentWidths w e) ∧ Le w (extentWidths w e) :=
  ⟨⟨bump_size hw.1, bump_size hw.2.1, hw.2.2.1, bump_size hw.2.2.2⟩,
    ⟨bump_le hw.1, bump_le hw.2.1, Nat.le_refl _, bump_le hw.2.2.2⟩⟩

theorem extents_spec (es : List Extent) : ∀ w, Allowed w →
    (∀ e ∈ es, e.offset < 2 ^ 64 ∧ e.length < 2 ^ 64 ∧ e.index < 2 ^ 64) →
    Allowed (es.foldl extentWidths w) ∧ Le w (es.foldl extentWidths w) ∧
    ∀ e ∈ es, e.offset < 256 ^ (es.foldl extentWidths w).offset ∧ e.length < 256 ^ (es.foldl extentWidths w).length ∧
      e.index < 256 ^ (es.foldl extentWidths w).index := by
  induction es with
  | nil => intro w hw _; exact ⟨hw, Le.refl w, by simp⟩
  | cons e es ih =>
    intro w hw hes
    obtain ⟨h1, h2⟩ := extentWidths_spec hw e
    obtain ⟨h3, h4, h5⟩ := ih _ h1 fun x hx => hes x (by simp [hx])
    refine ⟨h3, Le.trans h2 h4, ?_⟩
    intro x hx
    rcases List.mem_cons.1 hx with rfl | hx
    · obtain ⟨f1, f2, f3⟩ := hes x (by simp)
      exact ⟨pow_mono h4.1 (bump_fits hw.1 f1), pow_mono h4.2.1 (bump_fits hw.2.1 f2),
        pow_mono h4.2.2.2 (bump_fits hw.2.2.2 f3)⟩
    · exact h5 x hx

theorem room_spec {w : Widths} (hw : Allowed w) (a : Item) : Allowed (room w a) ∧ Le w (room w a) := by
  unfold room
  split
  · refine ⟨⟨?_, hw.2.1, ?_, hw.2.2.2⟩, ⟨?_, Nat.le_refl _, ?_, Nat.le_refl _⟩⟩
    · simp only; split
      · exact .inr (.inl rfl)
      · exact hw.1
    · simp only; split
      · exact .inr (.inl rfl)
      · exact hw.2.2.1
    · simp only; split <;> omega
    · simp only; split <;> omega
  · exact ⟨hw, Le.refl w⟩

theorem items_spec (items : List Item) : ∀ w, Allowed w →
    (∀ a ∈ items, a.base < 2 ^ 64 ∧ ∀ e ∈ extentsOf a, e.offset < 2 ^ 64 ∧ e.length < 2 ^ 64 ∧ e.index < 2 ^ 64) →
    Allowed (items.foldl itemWidths w) ∧ Le w (items.foldl itemWidths w) ∧ Enough (items.foldl itemWidths w) items := by
  induction items with
  | nil => intro w hw _; exact ⟨hw, Le.refl w, by intro a h; cases h⟩
  | cons a items ih =>
    intro w hw hi
    obtain ⟨hb, he⟩ := hi a (by simp)
    have h0 : Allowed { w with base := bump w.base a.base } ∧ Le w { w with base := bump w.base a.base } :=
      ⟨⟨hw.1, hw.2.1, bump_size hw.2.2.1, hw.2.2.2⟩, ⟨Nat.le_refl _, Nat.le_refl _, bump_le hw.2.2.1, Nat.le_refl _⟩⟩
    obtain ⟨h1, h2⟩ := room_spec h0.1 a
    obtain ⟨h3, h4, h5⟩ := extents_spec (extentsOf a) _ h1 he
    obtain ⟨h6, h7, h8⟩ := ih (itemWidths w a) h3 fun x hx => hi x (by simp [hx])
    have hle : Le w (itemWidths w a) := Le.trans h0.2 (Le.trans h2 h4)
    refine ⟨h6, Le.trans hle h7, ?_⟩
    intro x hx
    rcases List.mem_cons.1 hx with rfl | hx
    · refine ⟨?_, fun e hee => ?_⟩
      · exact pow_mono (Nat.le_trans (Nat.le_trans h2.2.2.1 h4.2.2.1) h7.2.2.1) (bump_fits hw.2.2.1 hb)
      · obtain ⟨g1, g2, g3⟩ := h5 e hee
        exact ⟨pow_mono h7.1 g1, pow_mono h7.2.1 g2, pow_mono h7.2.2.2 g3⟩
    · exact h8 x hx

/-- The sizes chosen are allowed, and every value fits. -/
theorem c35_widths (items : List Item)
    (h : ∀ a ∈ items, a.base < 2 ^ 64 ∧ ∀ e ∈ extentsOf a, e.offset < 2 ^ 64 ∧ e.length < 2 ^ 64 ∧ e.index < 2 ^ 64) :
    Allowed (widths items) ∧ Enough (widths items) items := by
  obtain ⟨h1, _, h3⟩ := items_spec items ⟨0, 0, 0, 0⟩ ⟨.inl rfl, .inl rfl, .inl rfl, .inl rfl⟩ h
  exact ⟨h1, h3⟩

/-! ## Writing and parsing -/

theorem emits_var {w : Nat} (h : Size w) (v : Nat) : Emits (putVar w v) (be w v) := by
  unfold putVar
  rcases h with rfl | rfl | rfl
  · exact emits_skip
  · exact emits_put32 v
  · exact emits_put64 v

theorem parses_var {w v : Nat} (h : Size w) (hv : v < 256 ^ w) : Parses (getVar w) (be w v) v := by
  unfold getVar
  rcases h with rfl | rfl | rfl
  · have : v = 0 := by omega
    subst this
    exact parses_pure 0
  · exact parses_get32' hv
  · exact parses_get64' hv

theorem emits_extent (version : Nat) {w : Widths} (hw : Allowed w) (e : Extent) :
    Emits (putExtent version w e) (extentBytes version w e) := by
  unfold putExtent extentBytes
  refine Emits.seq ?_ ((emits_var hw.1 _).seq (emits_var hw.2.1 _))
  split
  · exact emits_var hw.2.2.2 _
  · exact emits_skip

theorem be_two (m : Nat) (h : m < 2 ^ 8) : be 2 m = be 1 0 ++ be 1 m := by
  rw [be2, be1, be1, show m / 256 = 0 by omega]
  rfl

theorem emits_item (version : Nat) {w : Widths} (hw : Allowed w) (a : Item) (hm : a.method < 2 ^ 8) :
    Emits (putItem version w a) (itemBytes version w a) := by
  unfold putItem itemBytes
  refine (emits_put16 _).seq (Emits.seq ?_ ((emits_put16 _).seq ((emits_var hw.2.2.1 _).seq ((emits_put16 _).seq
    (Emits.each _ fun e _ => emits_extent version hw e)))))
  split
  · rw [be_two _ hm]
    exact (emits_put8 _).seq (emits_put8 _)
  · exact emits_skip

theorem parses_extent {version : Nat} {w : Widths} (hw : Allowed w) {e : Extent} (h1 : e.offset < 256 ^ w.offset)
    (h2 : e.length < 256 ^ w.length) (h3 : e.index < 256 ^ w.index) (hv : version ≠ 1 → e.index = 0) :
    Parses (getExtent version w) (extentBytes version w e) e := by
  unfold getExtent extentBytes
  refine Parses.bind (a := e.index) ?_ ((parses_var hw.1 h1).bind ((parses_var hw.2.1 h2).bind_nil (parses_pure _)))
  unfold getIndex
  by_cases h : version = 1
  · rw [if_pos h, if_pos h]; exact parses_var hw.2.2.2 h3
  · rw [if_neg h, if_neg h, hv h]; exact parses_pure 0

theorem parses_item {version : Nat} {w : Widths} (hw : Allowed w) {a : Item} (ha : ItemFits version a)
    (hb : a.base < 256 ^ w.base)
    (he : ∀ e ∈ extentsOf a, e.offset < 256 ^ w.offset ∧ e.length < 256 ^ w.length ∧ e.index < 256 ^ w.index) :
    Parses (getItem version w) (itemBytes version w a) (present a) := by
  unfold getItem itemBytes
  refine (parses_get16' ha.id).bind ?_
  refine Parses.bind (a := a.method) ?_ ?_
  · unfold getMethod
    by_cases h : version = 1
    · rw [if_pos h, if_pos h]; exact parses_get16' (by have := ha.method; omega)
    · rw [if_neg h, if_neg h, (ha.old h).1]; exact parses_pure 0
  refine (parses_get16' ha.dref).bind ((parses_var hw.2.2.1 hb).bind ((parses_get16' ha.count).bind ?_))
  refine Parses.bind_nil (a := extentsOf a) ?_ ?_
  · exact parses_repeat _ _ (fun e h => parses_extent hw (he e h).1 (he e h).2.1 (he e h).2.2
      fun hv => (ha.old hv).2 e h) rfl
  · have hm : w8(a.method) = a.method := Nat.mod_eq_of_lt ha.method
    simp only [present, hm]
    exact parses_pure _

theorem item_length (version : Nat) (w : Widths) (a : Item) : (itemBytes version w a).length =
    w.base + 6 + (if version = 1 then 2 else 0) +
      (extentsOf a).length * (w.offset + w.length + if version = 1 then w.index else 0) := by
  have he : ((extentsOf a).flatMap (extentBytes version w)).length =
      (w.offset + w.length + if version = 1 then w.index else 0) * (extentsOf a).length := by
    refine flatMap_length_const _ fun e _ => ?_
    unfold extentBytes
    split <;> simp only [List.length_append, be_length, List.length_nil] <;> omega
  unfold itemBytes
  simp only [List.length_append, he]
  rw [Nat.mul_comm (extentsOf a).length]
  split <;> simp only [be_length, List.length_nil] <;> omega

theorem items_length (version : Nat) (w : Widths) (items : List Item) : (items.flatMap (itemBytes version w)).length =
    items.length * (w.base + 6) + extentTotal items * (w.offset + w.length) +
      if version = 1 then items.length * 2 + extentTotal items * w.index else 0 := by
  induction items with
  | nil => simp [extentTotal]
  | cons a items ih =>
    have ht : extentTotal (a :: items) = (extentsOf a).length + extentTotal items := by simp [extentTotal, extentsOf]
    simp only [List.flatMap_cons, List.length_append, item_length, ih, ht, List.length_cons]
    split
    · simp only [Nat.add_mul, Nat.mul_add]; omega
    · simp only [Nat.add_mul, Nat.mul_add]; omega

theorem nibbles {a b : Nat} (ha : Size a) (hb : Size b) :
    w8((a <<< 4) ||| b) = 16 * a + b ∧ (16 * a + b) >>> 4 = a ∧ (16 * a + b) &&& 0xF = b := by
  rcases ha with rfl | rfl | rfl <;> rcases hb with rfl | rfl | rfl <;> decide

/-- The box is written in the layout with the sizes chosen, of exactly the computed length, and the
parser returns the same items and extents. -/
theorem c35_round_trip (b : Box) (hver : b.version < 256) (hfl : b.flags < 2 ^ 24) (hn : b.items.length < 2 ^ 16)
    (hi : ∀ a ∈ b.items, ItemFits b.version a) (hs : (layout (widths b.items) b).length < 2 ^ 32) :
    BoxRoundTrip (size b) (serialize b) parse { b with items := b.items.map present } (layout (widths b.items) b) := by
  obtain ⟨hw, hen⟩ := c35_widths b.items fun a ha => ⟨(hi a ha).base, (hi a ha).extents⟩
  have hsz : size b = 12 + (be 1 (16 * (widths b.items).offset + (widths b.items).length) ++
      (be 1 (16 * (widths b.items).base + (widths b.items).index) ++ (be 2 b.items.length ++
        b.items.flatMap (itemBytes b.version (widths b.items))))).length := by
    simp only [layout, fullBox, box, List.length_append, be_length, items_length] at hs ⊢
    unfold size
    omega
  have hlt : size b < 4294967296 := by unfold size; exact Nat.mod_lt _ (by decide)
  obtain ⟨n1, n2, n3⟩ := nibbles hw.1 hw.2.1
  obtain ⟨n4, n5, n6⟩ := nibbles hw.2.2.1 hw.2.2.2
  have l1 : 16 * (widths b.items).offset + (widths b.items).length < 256 := by
    have := hw.1; have := hw.2.1; omega
  have l2 : 16 * (widths b.items).base + (widths b.items).index < 256 := by
    have := hw.2.2.1; have := hw.2.2.2; omega
  refine BoxRoundTrip.ofFull (type := typeIloc) ?_ ?_ hsz hlt (by decide) (by decide)
  · rw [n1, n4]
    exact (emits_put8 _).then ((emits_put8 _).then ((emits_put16 _).then (Emits.thenAssert
      (Emits.each _ fun a ha => emits_item _ hw a (hi a ha).method))))
  · apply Parses.at
    unfold parse
    refine (parses_versionFlags hver hfl).bind ((parses_get8' l1).bind ((parses_get8' l2).bind
      ((parses_get16' hn).bind ?_)))
    rw [n2, n3, n5, n6]
    refine Parses.bind_nil (a := b.items.map present) ?_ (parses_pure _)
    exact parses_repeat_map _ _ present (fun a ha => parses_item hw (hi a ha) (hen a ha).1 (hen a ha).2) rfl

/-- If all lists of extents are present the very same box is returned. -/
theorem c35_same (b : Box) (h : ∀ a ∈ b.items, a.extents ≠ none) : { b with items := b.items.map present } = b := by
  have : b.items.map present = b.items := by
    conv => rhs; rw [← List.map_id b.items]
    refine List.map_congr_left fun a ha => ?_
    obtain ⟨l, hl⟩ := Option.ne_none_iff_exists'.1 (h a ha)
    simp [present, extentsOf, hl]
    rw [← hl]
  rw [this]

/-! ## A case that meets the hypotheses -/

def sample : Box := ⟨1, 0, [⟨1, 0, 0, 0, some [⟨0, 100, 5⟩, ⟨0, 4294967296, 7⟩]⟩, ⟨2, 2, 1, 0, none⟩, ⟨3, 1, 0, 9, some []⟩]⟩

theorem sample_fits : ∀ a ∈ sample.items, ItemFits sample.version a := by
  intro a ha
  simp only [sample, List.mem_cons, List.not_mem_nil, or_false] at ha
  rcases ha with rfl | rfl | rfl <;>
    exact ⟨by decide, by decide, by decide, by decide, by decide, by decide, by decide⟩

example : widths sample.items = ⟨8, 4, 4, 0⟩ ∧ (layout (widths sample.items) sample).length < 2 ^ 32 ∧
    (runW (size sample) (serialize sample)).bind (fun bs => (parseAtom parse (bs ++ [3])).bind fun r =>
      .ok (r.1.items.map (fun a => (a.id, a.method, a.base, extentsOf a)))) =
    .ok [(1, 0, 0, [⟨0, 100, 5⟩, ⟨0, 4294967296, 7⟩]), (2, 2, 0, []), (3, 1, 9, [])] := by decide +kernel

end Verif.Iloc
