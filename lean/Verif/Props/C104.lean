import Verif.Model.ItemRange
import Verif.Spec.ItemRange
import Verif.Props.C35
import Verif.Props.C86

/-!
# C104: items that are ranges of files
-/

namespace Verif.ItemRange

open Handler (Fs Ref Mapping Keeps Opened Elsewhere freshBox)

/-! ## Lemmas -/

def toExtent (r : Nat × Nat) : Iloc.Extent := ⟨0, r.1, r.2⟩

theorem addAll_more (a : Iloc.Item) (hd : a.dref ≠ 0) (es : List Iloc.Extent) (he : a.extents = some es) (hn : es ≠ []) (l : List (Nat × Nat)) :
    addAll true a l = .ok { a with extents := some (es ++ l.map toExtent) } := by
  induction l generalizing a es with
  | nil => cases a; cases he; simp [addAll]
  | cons r l ih =>
    have hl : es.length ≠ 0 := fun h => hn (List.length_eq_zero_iff.1 h)
    have hp : add true a r.1 r.2 = .ok { a with extents := some (es ++ [toExtent r]) } := by
      unfold add Meta.pushExtent
      rw [if_pos hd, if_pos rfl, he]
      simp only [Option.getD_some, if_neg hl]
      rfl
    show (add true a r.1 r.2).bind _ = _
    rw [hp]
    show addAll true _ l = _
    rw [ih { a with extents := some (es ++ [toExtent r]) } hd (es ++ [toExtent r]) rfl (by simp)]
    simp

theorem make_eq (base dref id : Nat) (hd : dref ≠ 0) (r : Nat × Nat) (l : List (Nat × Nat)) :
    make true base dref id (r :: l) = .ok ⟨id, 0, dref, w64(base + r.1), some ((r :: l).map toExtent)⟩ := by
  have hp : add true (Meta.newItem base dref id) r.1 r.2 = .ok ⟨id, 0, dref, w64(base + r.1), some [toExtent r]⟩ := by
    unfold add Meta.pushExtent Meta.newItem
    rw [if_pos hd, if_pos rfl]
    rfl
  show (add true (Meta.newItem base dref id) r.1 r.2).bind _ = _
  rw [hp]
  show addAll true _ l = _
  rw [addAll_more ⟨id, 0, dref, w64(base + r.1), some [toExtent r]⟩ hd [toExtent r] rfl (by simp)]
  rfl

theorem pieces_eq (f : Bytes) (base : Nat) (l : List (Nat × Nat)) : Handler.pieces f base (l.map toExtent) = bytes f base l := by
  induction l with
  | nil => rfl
  | cons r l ih => show _ ++ Handler.pieces f base (l.map toExtent) = _; rw [ih]; rfl

theorem total_eq (l : List (Nat × Nat)) : ((l.map toExtent).map (·.length)).sum = total l := by
  rw [List.map_map]; rfl

/-- After any other items, the answer is that of the item by itself. -/
theorem data_eq (fs : Fs) (st : Option Mapping) (refs : Option (List Ref)) (mdat : Option Mdat.T) (before : List Iloc.Item) (a : Iloc.Item) :
    data fs (freshBox st refs mdat) before a = some ((freshBox st refs mdat).item fs a).2 := by
  unfold data
  rw [Handler.c86_items_alone]
  simp

theorem item_read (fs : Fs) (st : Option Mapping) (own dir : Option Bytes) (ho : Opened st own dir) (refs : List Ref) (mdat : Option Mdat.T)
    (base dref id : Nat) (r : Ref) (f : Bytes) (hd : 0 < dref) (hr : refs[dref - 1]? = some r) (hk : Keeps fs own dir r f)
    (x : Nat × Nat) (l : List (Nat × Nat)) (hx : InFile f base (2 * x.1, x.2)) (hin : ∀ y ∈ l, InFile f base y) (hl : total (x :: l) < 2 ^ 32) :
    ((freshBox st (some refs) mdat).item fs ⟨id, 0, dref, w64(base + x.1), some ((x :: l).map toExtent)⟩).2 =
      .ok ((bytes f base ((2 * x.1, x.2) :: l)).map some) := by
  obtain ⟨h, hu, hg⟩ := Handler.box_use_keeps ho mdat hd hr hk
  obtain ⟨h1, h2, h3⟩ := hx
  simp only at h1 h2 h3
  unfold total at hl
  simp only [List.map_cons, List.sum_cons] at hl
  have hb : (base + x.1) % 18446744073709551616 = base + x.1 := by omega
  unfold Handler.Box.item
  simp only [hu, Option.getD_some, List.map_cons, hb]
  rw [Handler.extents_step hg (e := toExtent x) (base := base + x.1) true h1 (show x.2 < _ by omega) (show base + x.1 + x.1 < _ by omega)
    (show base + x.1 + x.1 + x.2 ≤ _ by omega) (show 0 + x.2 < _ by omega)]
  have hb' : (base + x.1 + (18446744073709551616 - (toExtent x).offset)) % 18446744073709551616 = base := by
    show (base + x.1 + (18446744073709551616 - x.1)) % 18446744073709551616 = base
    omega
  simp only [if_true, hb']
  have hlen : ((f.drop (base + x.1 + x.1)).take x.2).length ≤ x.2 := List.length_take_le _ _
  rw [Handler.extents_ok hg base (l.map toExtent) _ (by
    intro e he
    obtain ⟨y, hy, rfl⟩ := List.mem_map.1 he
    obtain ⟨k1, k2, k3⟩ := hin y hy
    have hle : y.2 ≤ (l.map (·.2)).sum := by
      clear hin hl he
      induction l with
      | nil => simp at hy
      | cons z l ih =>
        simp only [List.map_cons, List.sum_cons]
        rcases List.mem_cons.1 hy with rfl | hy
        · omega
        · have := ih hy; omega
    exact ⟨k1, show y.2 < _ by omega, k2, k3⟩) (by
    rw [total_eq]
    simp only [List.nil_append, List.length_map]
    show ((f.drop (base + x.1 + x.1)).take x.2).length + (l.map (·.2)).sum < _
    omega)]
  rw [pieces_eq]
  have : base + x.1 + x.1 = base + 2 * x.1 := by omega
  simp [bytes, toExtent, this]

/-! ## The property -/

/-- **C104.** An item of ranges in a file: every range is taken, and the data of the item, after any other items have been read, are the bytes of the ranges
one after the other. (Missing: items whose first range does not start at the base of the item, `c104_not_elsewhere`.) -/
theorem c104_ranges_partial (fs : Fs) (st : Option Mapping) (own dir : Option Bytes) (ho : Opened st own dir) (refs : List Ref) (mdat : Option Mdat.T)
    (base dref id : Nat) (r : Ref) (f : Bytes) (hd : 0 < dref) (hr : refs[dref - 1]? = some r) (hk : Keeps fs own dir r f) (ranges : List (Nat × Nat))
    (hn : ranges ≠ []) (hin : ∀ x ∈ ranges, InFile f base x) (hl : total ranges < 2 ^ 32) (hfirst : ∀ x, ranges.head? = some x → x.1 = 0)
    (before : List Iloc.Item) :
    ∃ a, make true base dref id ranges = .ok a ∧ a.id = id ∧
      data fs (freshBox st (some refs) mdat) before a = some (.ok ((bytes f base ranges).map some)) := by
  cases ranges with
  | nil => exact absurd rfl hn
  | cons x l =>
    obtain ⟨o, n⟩ := x
    obtain rfl : o = 0 := hfirst _ rfl
    refine ⟨_, make_eq base dref id (by omega) (0, n) l, rfl, ?_⟩
    rw [data_eq, item_read fs st own dir ho refs mdat base dref id r f hd hr hk (0, n) l (hin _ (by simp)) (fun y hy => hin y (by simp [hy])) hl]
    rfl

/-- **C104, the code.** What is read of any item of ranges: where the first one starts is counted twice, once in the base that the item is given with it and
once in the range; the others are right. -/
theorem c104_read (fs : Fs) (st : Option Mapping) (own dir : Option Bytes) (ho : Opened st own dir) (refs : List Ref) (mdat : Option Mdat.T)
    (base dref id : Nat) (r : Ref) (f : Bytes) (hd : 0 < dref) (hr : refs[dref - 1]? = some r) (hk : Keeps fs own dir r f) (o n : Nat)
    (l : List (Nat × Nat)) (hx : InFile f base (2 * o, n)) (hin : ∀ y ∈ l, InFile f base y) (hl : n + total l < 2 ^ 32) (before : List Iloc.Item) :
    ∃ a, make true base dref id ((o, n) :: l) = .ok a ∧
      data fs (freshBox st (some refs) mdat) before a = some (.ok (((f.drop (base + 2 * o)).take n ++ bytes f base l).map some)) := by
  refine ⟨_, make_eq base dref id (by omega) (o, n) l, ?_⟩
  rw [data_eq, item_read fs st own dir ho refs mdat base dref id r f hd hr hk (o, n) l hx hin hl]
  rfl

/-- **C104, the code.** So an item whose first range starts elsewhere has the bytes of the range only if the file has the same ones twice as far from the
base. -/
theorem c104_not_elsewhere (fs : Fs) (st : Option Mapping) (own dir : Option Bytes) (ho : Opened st own dir) (refs : List Ref) (mdat : Option Mdat.T)
    (base dref id : Nat) (r : Ref) (f : Bytes) (hd : 0 < dref) (hr : refs[dref - 1]? = some r) (hk : Keeps fs own dir r f) (o n : Nat)
    (l : List (Nat × Nat)) (hx : InFile f base (2 * o, n)) (hin : ∀ y ∈ l, InFile f base y) (hl : n + total l < 2 ^ 32)
    (hne : (f.drop (base + 2 * o)).take n ≠ (f.drop (base + o)).take n) (before : List Iloc.Item) :
    ∃ a, make true base dref id ((o, n) :: l) = .ok a ∧
      data fs (freshBox st (some refs) mdat) before a ≠ some (.ok ((bytes f base ((o, n) :: l)).map some)) := by
  obtain ⟨a, ha, hr'⟩ := c104_read fs st own dir ho refs mdat base dref id r f hd hr hk o n l hx hin hl before
  refine ⟨a, ha, fun h => hne ?_⟩
  rw [hr'] at h
  injection h with h
  injection h with h
  have h' := (List.map_inj_right (fun _ _ e => Option.some.inj e)).1 h
  exact List.append_cancel_right (show _ ++ bytes f base l = (f.drop (base + o)).take n ++ bytes f base l from h')

/-- **C104, the code.** A range of another file that is inside of it but ends past its end when its start is counted twice: it is read past the end of the
file. -/
theorem c104_not_inside (fs : Fs) (st : Option Mapping) (own dir : Option Bytes) (ho : Opened st own dir) (refs : List Ref) (mdat : Option Mdat.T)
    (base dref id : Nat) (r : Ref) (f path : Bytes) (hd : 0 < dref) (hr : refs[dref - 1]? = some r) (hp : Elsewhere dir r path) (hf : fs path = some f)
    (small : f.length ≤ 0x7ffff000) (o n : Nat) (l : List (Nat × Nat)) (hx : InFile f base (o, n)) (hout : f.length < base + 2 * o + n)
    (before : List Iloc.Item) :
    ∃ a, make true base dref id ((o, n) :: l) = .ok a ∧ data fs (freshBox st (some refs) mdat) before a = some .ub := by
  refine ⟨_, make_eq base dref id (by omega) (o, n) l, ?_⟩
  rw [data_eq]
  obtain ⟨h1, h2, h3⟩ := hx
  simp only at h1 h2 h3
  have hc : Handler.create fs st r = (.map (.own ⟨some f, f.length, Handler.parentOf path⟩), .ok ()) := by
    unfold Handler.create
    rw [if_neg (fun c => hp.flags c.1), Handler.openRef_elsewhere ho hp, Handler.openPath_small hf small]
    rfl
  have hu : (freshBox st (some refs) mdat).use fs dref =
      (⟨st, some refs, mdat, some (.map (.own ⟨some f, f.length, Handler.parentOf path⟩)), some dref⟩,
        .ok (.map (.own ⟨some f, f.length, Handler.parentOf path⟩))) := by
    unfold Handler.Box.use
    rw [Handler.box_switch]
    unfold Handler.Box.open freshBox
    rw [if_neg (by omega)]
    simp only [hr, hc]
  have hb : (base + o) % 18446744073709551616 = base + o := by omega
  unfold Handler.Box.item
  simp only [hu, Option.getD_some, List.map_cons, hb]
  rw [Handler.extents, if_neg (show ¬ (toExtent (o, n)).length = 0 from by show ¬ n = 0; omega), if_neg (by
    show ¬ n >>> 32 ≠ 0
    simp [Handler.shift32 (show n < 2 ^ 32 by omega)])]
  show some (if 0 + n ≥ 4294967296 then Res.ub else _) = _
  rw [if_neg (by omega)]
  have hw : ((toExtent (o, n)).offset + (base + o)) % 18446744073709551616 = base + 2 * o := by
    show (o + (base + o)) % 18446744073709551616 = _
    omega
  rw [hw]
  have hcopy : (Handler.Hand.map (.own ⟨some f, f.length, Handler.parentOf path⟩)).copy st (base + 2 * o) n = .ub := by
    simp only [Handler.Hand.copy, Handler.Mapping.copy, Handler.shift32 (show base + 2 * o < 2 ^ 32 by omega)]
    rw [if_neg (by simp), if_neg (by omega)]
  rw [show (toExtent (o, n)).length = n from rfl, hcopy]
  rfl

/-- **C104.** An item in the file of the meta box itself (its data reference is 0) cannot have ranges of files, and no item can in a meta box without a data
information box. -/
theorem c104_refused (dinf : Bool) (base dref id : Nat) (h : dref = 0 ∨ dinf = false) (ranges : List (Nat × Nat)) (hn : ranges ≠ []) :
    make dinf base dref id ranges = .err .badParam := by
  cases ranges with
  | nil => exact absurd rfl hn
  | cons x l =>
    have : add dinf (Meta.newItem base dref id) x.1 x.2 = .err .badParam := by
      unfold add
      rcases h with rfl | rfl
      · rfl
      · split <;> rfl
    show (add dinf _ x.1 x.2).bind _ = _
    rw [this]
    rfl

/-- The item was made of ranges, all of whose numbers are `u64`, `u16` for its identifier and data reference. -/
structure Made (a : Iloc.Item) : Prop where
  made : ∃ base dref id x l, 0 < dref ∧ dref < 2 ^ 16 ∧ id < 2 ^ 16 ∧ (x :: l).length < 2 ^ 16 ∧ (∀ y ∈ x :: l, y.1 < 2 ^ 64 ∧ y.2 < 2 ^ 64) ∧
    make true base dref id (x :: l) = .ok a

/-- **C104.** The items with their ranges come back from a file as they were, so that the same data are read of them. (The size of the box is bounded,
as it is a `u32`.) -/
theorem c104_file (version flags : Nat) (hv : version < 256) (hf : flags < 2 ^ 24) (items : List Iloc.Item) (hn : items.length < 2 ^ 16)
    (hm : ∀ a ∈ items, Made a) (hs : (Iloc.layout (Iloc.widths items) ⟨version, flags, items⟩).length < 2 ^ 32) :
    BoxRoundTrip (Iloc.size ⟨version, flags, items⟩) (Iloc.serialize ⟨version, flags, items⟩) Iloc.parse (⟨version, flags, items⟩ : Iloc.Box)
      (Iloc.layout (Iloc.widths items) ⟨version, flags, items⟩) := by
  have hmade : ∀ a ∈ items, Iloc.ItemFits version a ∧ a.extents ≠ none := by
    intro a ha
    obtain ⟨base, dref, id, x, l, h1, h2, h3, h4, h5, h6⟩ := (hm a ha).made
    rw [make_eq base dref id (by omega) x l] at h6
    cases h6
    refine ⟨⟨h3, (by decide : (0 : Nat) < 2 ^ 8), h2, Nat.mod_lt _ (by decide), ?_, ?_, fun _ => ⟨rfl, ?_⟩⟩, Option.some_ne_none _⟩
    · show ((x :: l).map toExtent).length < _
      rw [List.length_map]
      exact h4
    · intro e he
      obtain ⟨y, hy, rfl⟩ := List.mem_map.1 (show e ∈ (x :: l).map toExtent from he)
      exact ⟨(h5 y hy).1, (h5 y hy).2, (by decide : (0 : Nat) < 2 ^ 64)⟩
    · intro e he
      obtain ⟨y, hy, rfl⟩ := List.mem_map.1 (show e ∈ (x :: l).map toExtent from he)
      rfl
  have := Iloc.c35_round_trip ⟨version, flags, items⟩ hv hf hn (fun a ha => (hmade a ha).1) hs
  rwa [Iloc.c35_same ⟨version, flags, items⟩ (fun a ha => (hmade a ha).2)] at this

/-! ## Examples -/

theorem sample_opened : Opened (some Handler.sampleStream) (some [1, 2, 3, 4, 5, 6]) (some (Handler.ascii "d/")) :=
  ⟨rfl, rfl, rfl, rfl, fun d hd => by
    have h : Handler.ascii "d/" = [100, 47] := by decide +kernel
    rw [h] at hd
    cases hd
    unfold Str.Text
    decide⟩

/-- Three ranges of the file `d/a`, after an item in a file that is not there. -/
example : ∃ a, make true 0 2 7 [(0, 1), (2, 1), (1, 2)] = .ok a ∧ a.id = 7 ∧
    data Handler.sampleFs (freshBox (some Handler.sampleStream) (some Handler.sampleRefs) none) [⟨1, 0, 4, 0, some [⟨0, 0, 1⟩]⟩] a =
      some (.ok (([11, 13, 12, 13] : Bytes).map some)) :=
  c104_ranges_partial Handler.sampleFs _ _ _ sample_opened Handler.sampleRefs none 0 2 7 _ [11, 12, 13] (by decide) rfl
    (.other _ Handler.sample_a (by decide +kernel) (by decide)) _ (by decide) (by unfold InFile; decide) (by decide) (by simp) _

/-- The same range for the byte 12, as the first one: it is the byte 13 that is read. -/
example : ∃ a, make true 0 2 7 [(1, 1)] = .ok a ∧
    data Handler.sampleFs (freshBox (some Handler.sampleStream) (some Handler.sampleRefs) none) [] a = some (.ok [some 13]) :=
  c104_read Handler.sampleFs _ _ _ sample_opened Handler.sampleRefs none 0 2 7 _ [11, 12, 13] (by decide) rfl
    (.other _ Handler.sample_a (by decide +kernel) (by decide)) 1 1 [] (by unfold InFile; decide) (by simp) (by decide) []

example : ∃ a, make true 0 2 7 [(1, 1)] = .ok a ∧
    data Handler.sampleFs (freshBox (some Handler.sampleStream) (some Handler.sampleRefs) none) [] a ≠ some (.ok [some 12]) :=
  c104_not_elsewhere Handler.sampleFs _ _ _ sample_opened Handler.sampleRefs none 0 2 7 _ [11, 12, 13] (by decide) rfl
    (.other _ Handler.sample_a (by decide +kernel) (by decide)) 1 1 [] (by unfold InFile; decide) (by simp) (by decide) (by decide) []

/-- The last byte of the file. -/
example : ∃ a, make true 0 2 7 [(2, 1)] = .ok a ∧
    data Handler.sampleFs (freshBox (some Handler.sampleStream) (some Handler.sampleRefs) none) [] a = some .ub :=
  c104_not_inside Handler.sampleFs _ _ _ sample_opened Handler.sampleRefs none 0 2 7 _ [11, 12, 13] _ (by decide) rfl
    Handler.sample_a (by decide +kernel) (by decide) 2 1 [] (by unfold InFile; decide) (by decide) []

example : make true 0 0 7 [(2, 1)] = .err .badParam ∧ make false 0 2 7 [(2, 1)] = .err .badParam :=
  ⟨c104_refused true 0 0 7 (.inl rfl) _ (by simp), c104_refused false 0 2 7 (.inr rfl) _ (by simp)⟩

/-- Two items of ranges, the second with an offset of 64 bits. -/
example : ∀ a ∈ [(⟨7, 0, 2, 0, some [⟨0, 0, 1⟩, ⟨0, 2, 1⟩]⟩ : Iloc.Item), ⟨8, 0, 1, 100, some [⟨0, 0, 5⟩, ⟨0, 2 ^ 40, 9⟩]⟩], Made a := by
  intro a ha
  simp only [List.mem_cons, List.not_mem_nil, or_false] at ha
  rcases ha with rfl | rfl
  · exact ⟨0, 2, 7, (0, 1), [(2, 1)], by decide, by decide, by decide, by decide, by decide, by decide⟩
  · exact ⟨100, 1, 8, (0, 5), [(2 ^ 40, 9)], by decide, by decide, by decide, by decide, by decide, by decide⟩

end Verif.ItemRange
