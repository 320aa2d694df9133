import Verif.Model.Ssix
import Verif.Lemmas.Auto

/-!
# C78: the subsegment index is read, and written, as the standard lays it out

Full property: a subsegment index is read as it is in the file; what was read, or put together, is written as it is.
Reading holds (`c78_read`). Writing does not: exactly the boxes in which all ranges of the `i`-th subsegment are equal to
its `i`-th and have level 0 are written as they are (`c78_write_iff_partial`); what is put together is not written at
all (`c78_built_not_written`).
-/

namespace Verif.Ssix

/-! ## Specification -/

/-- A subsegment index: for each subsegment its ranges, level and size in bytes (ISO/IEC 14496-12, 8.16.4). -/
abbrev Table := List (List (Nat × Nat))

def layoutRange (r : Nat × Nat) : Bytes := be 1 r.1 ++ be 3 r.2

def layoutSub (s : List (Nat × Nat)) : Bytes := be 4 s.length ++ s.flatMap layoutRange

def layout (version flags : Nat) (t : Table) : Bytes :=
  fullBox (fcc 's' 's' 'i' 'x') version flags (be 4 t.length ++ t.flatMap layoutSub)

/-- The values fit their fields. -/
def Fits (t : Table) : Prop := ∀ s ∈ t, ∀ r ∈ s, r.1 < 2 ^ 8 ∧ r.2 < 2 ^ 24

instance (t : Table) : Decidable (Fits t) := by unfold Fits; infer_instance

/-- The box in memory. -/
def ofTable (t : Table) : Ssix := ⟨t.length, t.map fun (s : List (Nat × Nat)) => ⟨s.length, s.map fun (r : Nat × Nat) => ⟨r.1, r.2⟩⟩⟩

/-- Every range of the `i`-th subsegment is the `i`-th one, with level 0. -/
def Plain (t : Table) : Prop := ∀ (i : Nat) (s : List (Nat × Nat)), t[i]? = some s → ∀ r ∈ s, r.1 = 0 ∧ s[i]? = some r

/-! ## Reading -/

theorem layoutRange_length (r : Nat × Nat) : (layoutRange r).length = 4 := by
  simp only [layoutRange, List.length_append, be_length]

theorem layoutSub_length (s : List (Nat × Nat)) : (layoutSub s).length = 4 + 4 * s.length := by
  unfold layoutSub
  rw [List.length_append, be_length, flatMap_length_const s fun r _ => layoutRange_length r]

theorem parses_range {r : Nat × Nat} (h : r.1 < 2 ^ 8 ∧ r.2 < 2 ^ 24) : Parses getRange (layoutRange r) ⟨r.1, r.2⟩ := by
  unfold layoutRange getRange
  rw [versionFlags_be _ _ h.2]
  show Parses _ (be 4 (r.1 * 2 ^ 24 + r.2)) _
  refine Parses.bind_nil (parses_get32' (by omega)) ?_
  have e1 : (r.1 * 2 ^ 24 + r.2) / 2 ^ 24 = r.1 := by omega
  have e2 : (r.1 * 2 ^ 24 + r.2) % 2 ^ 24 = r.2 := by omega
  rw [e1, e2]
  exact parses_pure _

theorem parses_sub {s : List (Nat × Nat)} (h : ∀ r ∈ s, r.1 < 2 ^ 8 ∧ r.2 < 2 ^ 24) (hl : s.length < 2 ^ 32) :
    Parses getSub (layoutSub s) ⟨s.length, s.map fun r => ⟨r.1, r.2⟩⟩ := by
  unfold getSub layoutSub
  refine (parses_get32' hl).bind ?_
  exact (parses_repeat_map s layoutRange (fun r => ⟨r.1, r.2⟩) (fun r hr => parses_range (h r hr)) rfl).bind_nil (parses_pure _)

theorem mem_layout_le {t : Table} {s : List (Nat × Nat)} (h : s ∈ t) : (layoutSub s).length ≤ (t.flatMap layoutSub).length := by
  induction t with
  | nil => simp at h
  | cons a t ih =>
    simp only [List.flatMap_cons, List.length_append]
    rcases List.mem_cons.1 h with rfl | h
    · omega
    · have := ih h; omega

theorem length_le (t : Table) : t.length ≤ (t.flatMap layoutSub).length := by
  induction t with
  | nil => simp
  | cons a t ih => simp only [List.flatMap_cons, List.length_append, List.length_cons, layoutSub_length]; omega

theorem layout_length (version flags : Nat) (t : Table) :
    (layout version flags t).length = 16 + (t.flatMap layoutSub).length := by
  simp only [layout, fullBox, box, List.length_append, be_length]; omega

/-- A subsegment index is read as it is in the file. -/
theorem c78_read (version flags : Nat) (t : Table) (hv : version < 256) (hf : flags < 2 ^ 24) (ht : Fits t)
    (hs : (layout version flags t).length < 2 ^ 32) (rest : Bytes) :
    ∃ h, parseAtom parse (layout version flags t ++ rest) = .ok (((version, flags), ofTable t), h, rest) := by
  rw [layout_length] at hs
  have hle := length_le t
  have he : fcc 's' 's' 'i' 'x' = typeSsix := by decide
  have hb : ∀ h : Hdr, h.size = 16 + (t.flatMap layoutSub).length →
      ParsesAt (parse h) 8 (be 1 version ++ be 3 flags ++ (be 4 t.length ++ t.flatMap layoutSub)) ((version, flags), ofTable t) := by
    intro h hh
    unfold parse
    refine ((parses_versionFlags hv hf).at _).bind ?_
    refine ((parses_get32' (by omega)).at _).bind ?_
    refine ((parses_repeat_map t layoutSub (fun s => ⟨s.length, s.map fun r => ⟨r.1, r.2⟩⟩)
      (fun s hs' => parses_sub (ht s hs') (by have := mem_layout_le hs'; rw [layoutSub_length] at this; omega)) rfl).at _).bind_nil ?_
    refine parsesAt_bytesRead ?_
    rw [if_neg (by simp only [List.length_append, be_length]; omega)]
    exact (parses_pure _).at _
  refine ⟨⟨16 + (t.flatMap layoutSub).length, typeSsix, [], 0, 8⟩, ?_⟩
  have := parseAtom_small (hb ⟨16 + (t.flatMap layoutSub).length, typeSsix, [], 0, 8⟩ rfl) (by
    simp only [List.length_append, be_length]; omega) (by simpa using hs) (by decide) (by decide) rest
  unfold layout fullBox box
  rw [he]
  have e : 8 + (be 1 version ++ be 3 flags ++ (be 4 t.length ++ t.flatMap layoutSub)).length = 16 + (t.flatMap layoutSub).length := by
    simp only [List.length_append, be_length]; omega
  rw [e]
  exact this

theorem ofTable_inj {a b : Table} (h : ofTable a = ofTable b) : a = b := by
  have hi : Function.Injective (fun s : List (Nat × Nat) => (⟨s.length, s.map fun r => (⟨r.1, r.2⟩ : Range)⟩ : Sub)) := by
    intro x y e
    have e2 : (x.map fun r => (⟨r.1, r.2⟩ : Range)) = y.map fun r => ⟨r.1, r.2⟩ := congrArg Sub.ranges e
    have hj : Function.Injective (fun r : Nat × Nat => (⟨r.1, r.2⟩ : Range)) := by
      intro p q e
      have h1 : p.1 = q.1 := congrArg Range.level e
      have h2 : p.2 = q.2 := congrArg Range.size e
      exact Prod.ext h1 h2
    exact (List.map_inj_right hj).1 e2
  exact (List.map_inj_right hi).1 (congrArg Ssix.subs h)

/-- Two tables that are laid out in the same way are the same. -/
theorem layout_inj {version flags : Nat} {a b : Table} (hv : version < 256) (hf : flags < 2 ^ 24) (ha : Fits a) (hb : Fits b)
    (hs : (layout version flags a).length < 2 ^ 32) (h : layout version flags a = layout version flags b) : a = b := by
  obtain ⟨_, h1⟩ := c78_read version flags a hv hf ha hs []
  obtain ⟨_, h2⟩ := c78_read version flags b hv hf hb (h ▸ hs) []
  rw [h, h2] at h1
  simp only [Res.ok.injEq, Prod.mk.injEq] at h1
  exact (ofTable_inj h1.1.2).symm

/-! ## Writing -/

/-- What is written for a range. -/
def slip (r : Nat × Nat) : Nat × Nat := (r.1 % 16 * 16, r.2)

/-- What is written for the `i`-th subsegment: its `i`-th range, as many times as it has ranges. -/
def slipped (i : Nat) (s : List (Nat × Nat)) : List (Nat × Nat) :=
  match s[i]? with
  | some r => List.replicate s.length (slip r)
  | none => []

/-- What is written for a table. -/
def mangled (t : Table) : Table := t.mapIdx slipped

/-- Each subsegment has no ranges, or enough for its own number. -/
def Reach (t : Table) : Prop := ∀ (i : Nat) (s : List (Nat × Nat)), t[i]? = some s → s = [] ∨ i < s.length

theorem slip_word {r : Nat × Nat} (h : r.1 < 2 ^ 8 ∧ r.2 < 2 ^ 24) :
    w32(r.1 * 2 ^ 28) ||| r.2 = (slip r).1 * 2 ^ 24 + (slip r).2 := by
  have e : w32(r.1 * 2 ^ 28) = (r.1 % 16 * 16) <<< 24 := by rw [Nat.shiftLeft_eq]; omega
  rw [e, or_shift_eq h.2]
  rfl

theorem slip_fits {r : Nat × Nat} (h : r.1 < 2 ^ 8 ∧ r.2 < 2 ^ 24) : (slip r).1 < 2 ^ 8 ∧ (slip r).2 < 2 ^ 24 := by
  unfold slip
  exact ⟨by simp only; omega, h.2⟩

theorem slipped_fits {i : Nat} {s : List (Nat × Nat)} (h : ∀ r ∈ s, r.1 < 2 ^ 8 ∧ r.2 < 2 ^ 24) :
    ∀ r ∈ slipped i s, r.1 < 2 ^ 8 ∧ r.2 < 2 ^ 24 := by
  intro r hr
  unfold slipped at hr
  cases e : s[i]? with
  | none => rw [e] at hr; cases hr
  | some q =>
    rw [e] at hr
    rw [(List.mem_replicate.1 hr).2]
    exact slip_fits (h q (List.mem_of_getElem? e))

theorem mangled_fits {t : Table} (h : Fits t) : Fits (mangled t) := by
  intro s hs
  obtain ⟨i, hi, e⟩ := List.mem_mapIdx.1 hs
  subst e
  exact slipped_fits (h _ (List.getElem_mem hi))

theorem slipped_length {i : Nat} {s : List (Nat × Nat)} (h : s = [] ∨ i < s.length) : (slipped i s).length = s.length := by
  unfold slipped
  rcases h with rfl | h
  · rfl
  · rw [List.getElem?_eq_getElem h]
    simp

theorem each_const {α : Type} {w : W} {bs : Bytes} (h : Emits w bs) (xs : List α) :
    Emits (W.each (fun _ => w) xs) (xs.flatMap fun _ => bs) := Emits.each xs fun _ _ => h

theorem flatMap_const {α β : Type} (g : β → Bytes) (b : β) (xs : List α) :
    (xs.flatMap fun _ => g b) = (List.replicate xs.length b).flatMap g := by
  induction xs with
  | nil => rfl
  | cons x xs ih => simp only [List.flatMap_cons, List.length_cons, List.replicate_succ, ih]

/-- A subsegment with enough ranges. -/
theorem emits_sub {t : Table} {i : Nat} {s : List (Nat × Nat)} (hi : t[i]? = some s) (h : ∀ r ∈ s, r.1 < 2 ^ 8 ∧ r.2 < 2 ^ 24)
    (hr : s = [] ∨ i < s.length) : Emits (putSub (ofTable t) i) (layoutSub (slipped i s)) := by
  have e : (ofTable t).subs[i]? = some ⟨s.length, s.map fun r => ⟨r.1, r.2⟩⟩ := by
    unfold ofTable
    rw [List.getElem?_map, hi]
    rfl
  unfold putSub
  rw [e]
  unfold layoutSub
  rw [slipped_length hr]
  refine (emits_put32 _).seq ?_
  rcases hr with rfl | hr
  · exact emits_skip
  · have hq : s[i]? = some s[i] := List.getElem?_eq_getElem hr
    have hf := h s[i] (List.getElem_mem hr)
    have ep : putRange i ⟨s.length, s.map fun r => ⟨r.1, r.2⟩⟩ = put32 ((slip s[i]).1 * 2 ^ 24 + (slip s[i]).2) := by
      unfold putRange
      rw [List.getElem?_map, hq, ← slip_word hf]
      rfl
    have es : slipped i s = List.replicate (List.range s.length).length (slip s[i]) := by
      unfold slipped
      rw [hq, List.length_range]
    rw [es, ← flatMap_const layoutRange]
    rw [ep]
    refine each_const ?_ _
    unfold layoutRange
    have := slip_fits hf
    rw [versionFlags_be _ _ this.2]
    exact emits_put32 _

/-- A subsegment with too few. -/
theorem fails_sub {t : Table} {i : Nat} {s : List (Nat × Nat)} (hi : t[i]? = some s) (hr : s ≠ []) (hl : s.length ≤ i) {st : WS}
    (hst : st.out.length + 4 ≤ st.size) (h32 : st.size < 2 ^ 32) : putSub (ofTable t) i st = .err .badParam := by
  have e : (ofTable t).subs[i]? = some ⟨s.length, s.map fun r => ⟨r.1, r.2⟩⟩ := by
    unfold ofTable
    rw [List.getElem?_map, hi]
    rfl
  unfold putSub
  rw [e]
  simp only
  unfold W.seq
  rw [emits_put32 _ st (by omega) (by rw [be_length]; omega), if_pos (by rw [be_length]; omega)]
  obtain ⟨n, hn⟩ : ∃ n, s.length = n + 1 := ⟨s.length - 1, by have := List.length_pos_iff.2 hr; omega⟩
  rw [hn, List.range_succ_eq_map]
  have : putRange i ⟨n + 1, s.map fun r => ⟨r.1, r.2⟩⟩ = W.fail .badParam := by
    unfold putRange
    rw [List.getElem?_map, List.getElem?_eq_none hl]
    rfl
  simp only [W.each, Res.bind, W.seq, this, W.fail]

/-- Subsegments, the first of which that has too few ranges stops everything. -/
theorem fails_subs {t : Table} (ht : Fits t) : ∀ (xs : List Nat) (st : WS), (∀ i ∈ xs, i < t.length) →
    st.out.length + (xs.flatMap fun i => layoutSub (t[i]?.getD [])).length ≤ st.size → st.size < 2 ^ 32 →
    (∃ i ∈ xs, ∃ s, t[i]? = some s ∧ s ≠ [] ∧ s.length ≤ i) → W.each (putSub (ofTable t)) xs st = .err .badParam := by
  intro xs
  induction xs with
  | nil => intro st _ _ _ ⟨i, hi, _⟩; cases hi
  | cons x xs ih =>
    intro st hx hl h32 hex
    have hxl := hx x (by simp)
    have hg : t[x]? = some t[x] := List.getElem?_eq_getElem hxl
    simp only [List.flatMap_cons, List.length_append, hg, Option.getD_some, layoutSub_length] at hl
    simp only [W.each, W.seq]
    by_cases hb : t[x] ≠ [] ∧ t[x].length ≤ x
    · rw [fails_sub hg hb.1 hb.2 (by omega) h32]
      rfl
    · have hr : t[x] = [] ∨ x < t[x].length := by
        by_cases e : t[x] = []
        · exact .inl e
        · exact .inr (by have : ¬ (t[x].length ≤ x) := fun h => hb ⟨e, h⟩
                         omega)
      have hlen : (layoutSub (slipped x t[x])).length = 4 + 4 * t[x].length := by rw [layoutSub_length, slipped_length hr]
      rw [emits_sub hg (ht _ (List.getElem_mem hxl)) hr st (by omega) (by omega), if_pos (by omega)]
      refine ih _ (fun i hi => hx i (by simp [hi])) (by simp only [List.length_append, hlen]; omega) h32 ?_
      obtain ⟨i, hi, s, h1, h2, h3⟩ := hex
      rcases List.mem_cons.1 hi with rfl | hi
      · rw [hg] at h1
        cases h1
        exact absurd ⟨h2, h3⟩ hb
      · exact ⟨i, hi, s, h1, h2, h3⟩

theorem range_flatMap (t : Table) (f : Nat → List (Nat × Nat) → Bytes) :
    ((List.range t.length).flatMap fun i => f i (t[i]?.getD [])) = (t.mapIdx fun i s => f i s).flatMap id := by
  have : (List.range t.length).map (fun i => f i (t[i]?.getD [])) = t.mapIdx fun i s => f i s := by
    apply List.ext_getElem
    · simp
    · intro i h1 h2
      simp only [List.length_map, List.length_range] at h1
      simp [List.getElem?_eq_getElem h1]
  rw [← this]
  simp [List.flatMap_map]

theorem range_layout (t : Table) : ((List.range t.length).flatMap fun i => layoutSub (t[i]?.getD [])) = t.flatMap layoutSub := by
  rw [range_flatMap t fun _ s => layoutSub s]
  have : (t.mapIdx fun _ s => layoutSub s) = t.map layoutSub := by
    apply List.ext_getElem <;> simp
  rw [this]
  simp [List.flatMap_map]

theorem range_mangled (t : Table) : ((List.range t.length).flatMap fun i => layoutSub (slipped i (t[i]?.getD []))) =
    (mangled t).flatMap layoutSub := by
  rw [range_flatMap t fun i s => layoutSub (slipped i s)]
  have : (t.mapIdx fun i s => layoutSub (slipped i s)) = (mangled t).map layoutSub := by
    unfold mangled
    apply List.ext_getElem <;> simp
  rw [this]
  simp [List.flatMap_map]

theorem calcSize_ofTable {t : Table} (hs : 16 + (t.flatMap layoutSub).length < 2 ^ 32) :
    calcSize (ofTable t) = .ok (16 + (t.flatMap layoutSub).length) := by
  have e : ((t.map fun (s : List (Nat × Nat)) => (⟨s.length, s.map fun (r : Nat × Nat) => ⟨r.1, r.2⟩⟩ : Sub)).map fun s => 4 + 4 * s.count).sum =
      (t.flatMap layoutSub).length := by
    clear hs
    induction t with
    | nil => rfl
    | cons a t ih =>
      simp only [List.map_cons, List.sum_cons, List.flatMap_cons, List.length_append, layoutSub_length, ih]
  unfold calcSize ofTable
  simp only [List.length_map]
  rw [if_neg (by omega)]
  have e2 : (t.map fun (s : List (Nat × Nat)) => (⟨s.length, s.map fun (r : Nat × Nat) => ⟨r.1, r.2⟩⟩ : Sub)).take t.length =
      t.map fun (s : List (Nat × Nat)) => ⟨s.length, s.map fun (r : Nat × Nat) => ⟨r.1, r.2⟩⟩ := by
    rw [List.take_of_length_le (by simp)]
  rw [e2, e]
  congr 1
  omega

/-- What `calculateSize` and `serialize` give for a box in memory. -/
def write (version flags : Nat) (x : Ssix) : Res Bytes :=
  (calcSize x).bind fun n => runW n (serialize n version flags x)

theorem mangled_length {t : Table} (hr : Reach t) : ((mangled t).flatMap layoutSub).length = (t.flatMap layoutSub).length := by
  rw [← range_mangled, ← range_layout]
  have : ∀ xs : List Nat, (∀ i ∈ xs, i < t.length) →
      (xs.flatMap fun i => layoutSub (slipped i (t[i]?.getD []))).length = (xs.flatMap fun i => layoutSub (t[i]?.getD [])).length := by
    intro xs
    induction xs with
    | nil => intro _; rfl
    | cons x xs ih =>
      intro h
      have hx := h x (by simp)
      have hg : t[x]? = some t[x] := List.getElem?_eq_getElem hx
      simp only [List.flatMap_cons, List.length_append, layoutSub_length, ih fun i hi => h i (by simp [hi]), hg, Option.getD_some]
      rw [slipped_length (hr x _ hg)]
  exact this _ fun i hi => List.mem_range.1 hi

/-- What is written: instead of the ranges of the `i`-th subsegment, its `i`-th range as often as there are ranges, with
the level in the upper half of its byte. -/
theorem c78_written (version flags : Nat) (t : Table) (ht : Fits t) (hr : Reach t) (hs : (layout version flags t).length < 2 ^ 32) :
    write version flags (ofTable t) = .ok (layout version flags (mangled t)) := by
  rw [layout_length] at hs
  have he : fcc 's' 's' 'i' 'x' = typeSsix := by decide
  have hm := mangled_length hr
  unfold write
  rw [calcSize_ofTable hs]
  simp only [Res.bind]
  refine Emits.run_ok ?_ (by rw [layout_length, hm]) hs
  have hl : (mangled t).length = t.length := by unfold mangled; simp
  have hsub : Emits (W.each (putSub (ofTable t)) (List.range t.length)) ((mangled t).flatMap layoutSub) := by
    rw [← range_mangled]
    refine Emits.each _ fun i hi => ?_
    have hi := List.mem_range.1 hi
    have hg : t[i]? = some t[i] := List.getElem?_eq_getElem hi
    rw [hg]
    exact emits_sub hg (ht _ (List.getElem_mem hi)) (hr _ _ hg)
  have := (emits_serFull (16 + (t.flatMap layoutSub).length) typeSsix version flags).seq ((emits_put32 t.length).seq hsub)
  have e : 8 + (be 1 version ++ be 3 flags ++ (be 4 t.length ++ (mangled t).flatMap layoutSub)).length = 16 + (t.flatMap layoutSub).length := by
    simp only [List.length_append, be_length, hm]; omega
  unfold layout fullBox box
  rw [he, hl, e]
  have ec : (ofTable t).count = t.length := rfl
  simpa only [serialize, List.append_assoc, ec] using this

/-- A subsegment that has ranges, but not as many as its own number, makes the box unwritable. -/
theorem c78_refused (version flags : Nat) (t : Table) (ht : Fits t) (hs : (layout version flags t).length < 2 ^ 32)
    (hr : ¬ Reach t) : write version flags (ofTable t) = .err .badParam := by
  rw [layout_length] at hs
  have hex : ∃ i ∈ List.range t.length, ∃ s, t[i]? = some s ∧ s ≠ [] ∧ s.length ≤ i := by
    refine Classical.byContradiction fun hn => hr ?_
    intro i s hi
    by_cases e : s = []
    · exact .inl e
    · refine .inr ?_
      have hlt := (List.getElem?_eq_some_iff.1 hi).1
      have : ¬ (s.length ≤ i) := fun h => hn ⟨i, List.mem_range.2 hlt, s, hi, e, h⟩
      omega
  unfold write
  rw [calcSize_ofTable hs]
  simp only [Res.bind]
  have h1 := emits_serFull (16 + (t.flatMap layoutSub).length) typeSsix version flags ⟨[], 16 + (t.flatMap layoutSub).length⟩
    (by simp) (by simp only [List.length_append, be_length, List.length_nil]; omega)
  rw [if_pos (by simp only [List.length_append, be_length, List.length_nil]; omega)] at h1
  have h2 := emits_put32 t.length ⟨[] ++ (be 4 (16 + (t.flatMap layoutSub).length) ++ be 4 typeSsix ++ (be 1 version ++ be 3 flags)),
    16 + (t.flatMap layoutSub).length⟩
    (by simp only [List.length_append, be_length, List.length_nil]; omega) (by simp only [List.length_append, be_length, List.length_nil]; omega)
  rw [if_pos (by simp only [List.length_append, be_length, List.length_nil]; omega)] at h2
  have h3 := fails_subs ht (List.range t.length)
    ⟨[] ++ (be 4 (16 + (t.flatMap layoutSub).length) ++ be 4 typeSsix ++ (be 1 version ++ be 3 flags)) ++ be 4 t.length,
      16 + (t.flatMap layoutSub).length⟩ (fun i hi => List.mem_range.1 hi)
    (by rw [range_layout]; simp only [List.length_append, be_length, List.length_nil]; omega) hs hex
  unfold runW serialize W.seq
  rw [h1]
  simp only [Res.bind]
  have ec : (ofTable t).count = t.length := rfl
  rw [ec, h2]
  simp only [h3]

/-- Exactly these boxes are written as they are. -/
theorem c78_write_iff_partial (version flags : Nat) (t : Table) (hv : version < 256) (hf : flags < 2 ^ 24) (ht : Fits t)
    (hs : (layout version flags t).length < 2 ^ 32) :
    write version flags (ofTable t) = .ok (layout version flags t) ↔ Plain t := by
  constructor
  · intro h
    by_cases hr : Reach t
    · rw [c78_written version flags t ht hr hs] at h
      have hl : (layout version flags (mangled t)).length < 2 ^ 32 := by
        rw [layout_length, mangled_length hr, ← layout_length version flags]; exact hs
      have e : mangled t = t := layout_inj hv hf (mangled_fits ht) ht hl (by injection h)
      intro i s hi r hm
      have hi' : (mangled t)[i]? = some (slipped i s) := by
        unfold mangled
        rw [List.getElem?_mapIdx, hi]
        rfl
      rw [e, hi] at hi'
      injection hi' with hi'
      have hlt : i < s.length := by
        rcases hr i s hi with rfl | h
        · cases hm
        · exact h
      have hq : s[i]? = some s[i] := List.getElem?_eq_getElem hlt
      have hsl : ∀ p ∈ s, p = slip s[i] := by
        intro p hp
        rw [hi'] at hp
        unfold slipped at hp
        rw [hq] at hp
        exact (List.mem_replicate.1 hp).2
      have hself := hsl s[i] (List.getElem_mem hlt)
      have h0 : s[i].1 = 0 := by
        have h1 : s[i].1 = s[i].1 % 16 * 16 := congrArg Prod.fst hself
        have h2 := (ht s (List.mem_of_getElem? hi) s[i] (List.getElem_mem hlt)).1
        omega
      have hr' : r = s[i] := (hsl r hm).trans hself.symm
      rw [hr']
      exact ⟨h0, hq⟩
    · rw [c78_refused version flags t ht hs hr] at h
      cases h
  · intro h
    have hr : Reach t := by
      intro i s hi
      cases s with
      | nil => exact .inl rfl
      | cons r s =>
        have := (h i _ hi r (by simp)).2
        exact .inr (List.getElem?_eq_some_iff.1 this).1
    rw [c78_written version flags t ht hr hs]
    congr 2
    apply List.ext_getElem?
    intro i
    unfold mangled
    rw [List.getElem?_mapIdx]
    cases hi : t[i]? with
    | none => rfl
    | some s =>
      simp only [Option.map_some, Option.some.injEq]
      cases s with
      | nil => rfl
      | cons r s =>
        have hp := h i _ hi
        have hq := (hp r (by simp)).2
        unfold slipped
        rw [hq]
        symm
        rw [List.eq_replicate_iff]
        refine ⟨rfl, fun b hb => ?_⟩
        have hb' := hp b hb
        rw [hq] at hb'
        have hbr : r = b := by injection hb'.2
        rw [← hbr]
        have h0 := (hp r (by simp)).1
        unfold slip
        rw [h0]
        exact Prod.ext h0 rfl

/-- Two subsegments, the second with one range of level 1, cannot be written; with two ranges of different sizes the box is
written with other ranges. -/
theorem c78_write_fails :
    write 0 0 (ofTable [[(0, 100)], [(1, 200)]]) = .err .badParam ∧
    write 0 0 (ofTable [[(1, 100), (2, 300)]]) = .ok (layout 0 0 [[(16, 100), (16, 100)]]) := by
  refine ⟨?_, ?_⟩ <;> decide +kernel

/-- What an application puts together is not written: neither the number of the subsegments nor that of their ranges is
counted. -/
theorem c78_built_not_written (version flags : Nat) (subs : List Sub) :
    write version flags (subs.foldl addSubsegment create) = .ok (layout version flags []) ∧
    getCount (subs.foldl addSubsegment create) = subs.length ∧
    ∀ rs : List (Nat × Nat), (rs.foldl (fun s r => addRange s r.1 r.2) ⟨0, []⟩).count = 0 := by
  have h1 : ∀ (l : List Sub) (x : Ssix), l.foldl addSubsegment x = ⟨x.count, x.subs ++ l⟩ := by
    intro l
    induction l with
    | nil => intro x; simp
    | cons a l ih => intro x; simp [ih, addSubsegment]
  have h2 : ∀ (l : List (Nat × Nat)) (s : Sub), (l.foldl (fun s r => addRange s r.1 r.2) s).count = s.count := by
    intro l
    induction l with
    | nil => intro s; rfl
    | cons a l ih => intro s; rw [List.foldl_cons, ih]; rfl
  rw [h1]
  refine ⟨?_, by simp [getCount, create], fun rs => h2 rs _⟩
  have hc : calcSize ⟨create.count, create.subs ++ subs⟩ = .ok 16 := by
    unfold calcSize
    rw [if_neg (by simp [create])]
    rfl
  unfold write
  rw [hc]
  simp only [Res.bind]
  refine Emits.run_ok ?_ (by rw [layout_length]; rfl) (by decide)
  have := (emits_serFull 16 typeSsix version flags).seq ((emits_put32 0).seq emits_skip)
  have he : fcc 's' 's' 'i' 'x' = typeSsix := by decide
  have e : 8 + (be 1 version ++ be 3 flags ++ (be 4 0 ++ [])).length = 16 := by
    simp only [List.length_append, be_length, List.length_nil]
  unfold layout fullBox box
  simp only [List.length_nil, List.flatMap_nil]
  rw [he, e]
  simpa only [serialize, List.append_assoc, create, List.range_zero, W.each] using this

/-! ## Cases that meet the hypotheses -/

example := c78_read 0 0 [[(1, 5), (2, 0xffffff)], [], [(255, 0)]] (by decide) (by decide) (by decide) (by decide) [9]
example := (c78_write_iff_partial 0 0 [[(0, 5), (0, 5)], []] (by decide) (by decide) (by decide) (by decide))

end Verif.Ssix
