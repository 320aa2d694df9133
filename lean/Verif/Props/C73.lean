import Verif.Lemmas.Mebx

/-!
# C73: boxed metadata

Keys that were added to an entry of boxed metadata are found again, with their declarations, and the data of a key in a
sample is given to the reader.
-/

namespace Verif.Meb

open Verif.Ent
open Verif.Prot (header_box)

variable {α : Type} {C : Class α}

/-! ## The boxes -/

/-- A key with any boxes, not more than one of each of its three kinds. -/
theorem c73_key {ks : List (Kid (Sub α))} (h : Family (sub C) ks) (h1 : Once (vals ks)) {id : Nat} (hi : GoodType id)
    (hl : 8 + (wire ks).length < 4294967296) : Survives (key C) id ⟨id, vals ks⟩ (box id (wire ks)) :=
  key_survives h h1 hi hl

/-- Reading a key: boxes that are dropped may be among the others. -/
theorem c73_key_reads {ks : List (Kid (Sub α))} (h : Readable (sub C) ks) (h1 : Once (vals (stay ks))) {id : Nat}
    (hi : GoodType id) (hl : 8 + (wire ks).length < 4294967296) :
    Reads (key C) id ⟨id, vals (stay ks)⟩ (box id (wire ks)) := key_reads h h1 hi hl

/-- Two declarations, two locales or two setups in a key are an error. -/
theorem c73_key_twice {ks : List (Kid (Sub α))} (h : Readable (sub C) ks) (h1 : ¬ Once (vals (stay ks))) {id : Nat}
    (hi : GoodType id) (hl : 8 + (wire ks).length < 4294967296) (rest : Bytes) :
    parseAtom (key C).parse (box id (wire ks) ++ rest) = .err .badData := key_twice h h1 hi hl rest

/-- The three kinds of boxes, and any other. -/
theorem c73_declaration {x : Keyd} (h1 : x.ns < 4294967296) (h2 : FourCC x.ns → x.value.length = 4)
    (hl : 12 + x.value.length < 4294967296) :
    Survives (sub C) (fcc 'k' 'e' 'y' 'd') (.keyd x) (box (fcc 'k' 'e' 'y' 'd') (be 4 x.ns ++ x.value)) :=
  keyd_survives C h1 h2 hl

theorem c73_locale {t : Bytes} (h0 : t ≠ []) (ht : ∀ b ∈ t, b ≠ 0) (hl : 9 + t.length < 4294967296) :
    Survives (sub C) (fcc 'l' 'o' 'c' 'a') (.loca (some (t ++ [0]))) (box (fcc 'l' 'o' 'c' 'a') (t ++ [0])) :=
  loca_survives C h0 ht hl

theorem c73_setup {d : Bytes} (hl : 8 + d.length < 4294967296) :
    Survives (sub C) (fcc 's' 'e' 't' 'u') (.setu d) (box (fcc 's' 'e' 't' 'u') d) := setu_survives C hl

/-- Reading a locale: any bytes, also without a NUL or with nothing before it; no bytes give no string. -/
theorem c73_locale_reads {b : Bytes} (hl : 8 + b.length < 4294967296) :
    Reads (sub C) (fcc 'l' 'o' 'c' 'a') (.loca (if b = [] then none else some b)) (box (fcc 'l' 'o' 'c' 'a') b) := by
  refine reads_of ?_ hl (by unfold GoodType; decide)
  have e : ∀ hd : Hdr, hd.type = fcc 'l' 'o' 'c' 'a' → (sub C).parse hd = P.as .loca (locaParse hd) := by
    intro hd h
    show (if hd.type = typeKeyd then _ else if hd.type = typeLoca then _ else _) = _
    rw [h, if_neg (by decide), if_pos (show fcc 'l' 'o' 'c' 'a' = typeLoca from rfl)]
  rw [e _ rfl]
  unfold P.as locaParse
  refine ParsesAt.bind_nil (a := if b = [] then none else some b) ?_ ((parses_pure _).at _)
  refine parsesAt_bytesToRead (n := b.length) rfl ?_
  by_cases h0 : b = []
  · subst h0
    exact (parses_pure _).at _
  · have hp := List.length_pos_iff.2 h0
    rw [if_pos hp, if_neg h0]
    exact ((parses_getBytes rfl).at _).bind_nil ((parses_pure _).at _)

theorem c73_other {t : Nat} {x : α} {b : Bytes} (h : Survives C t x b)
    (ht : t ≠ fcc 'k' 'e' 'y' 'd' ∧ t ≠ fcc 'l' 'o' 'c' 'a' ∧ t ≠ fcc 's' 'e' 't' 'u') :
    Survives (sub C) t (.other x) b := other_survives h ht

/-- A table with any keys, of different numbers; also numbers that are the types of boxes which are dropped elsewhere. -/
theorem c73_table {ks : List (Kid (Key α))} (h : ∀ k ∈ ks, Survives (key C) k.type k.val k.bytes)
    (hn : (ids (vals ks)).Nodup) (hl : 8 + (wire ks).length < 4294967296) :
    Survives (boxes C) (fcc 'k' 'e' 'y' 's') (.keys (vals ks)) (box (fcc 'k' 'e' 'y' 's') (wire ks)) :=
  table_survives h hn hl

/-- Two keys with one number are an error. -/
theorem c73_table_twice {ks : List (Kid (Key α))} (h : Readable (key C) ks) (hn : ¬ (ids (vals ks)).Nodup)
    (hl : 8 + (wire ks).length < 4294967296) (rest : Bytes) :
    parseAtom (boxes C).parse (box (fcc 'k' 'e' 'y' 's') (wire ks) ++ rest) = .err .badParam := by
  refine parseAtom_err ?_ hl (by unfold GoodType; decide)
  have e : ∀ hd : Hdr, hd.type = fcc 'k' 'e' 'y' 's' → (boxes C).parse hd = P.as .keys ((table C).parse hd) :=
    fun hd h => if_pos h
  rw [e _ rfl]
  unfold P.as
  rw [P.bind_apply, table_parse h hl, if_neg hn]

/-! ## Adding -/

/-- A request gets the first number that is free, and a row at the end of the table. -/
theorem c73_add {r : Request} (h : r.Fine) (h7 : FourCC r.ns → r.value = none ∨ Seven r.desired) {dref : Nat}
    {xs : List Row} {n : Nat} (hf : Free (xs.map (·.id)) r.desired n) :
    r.add (entryOf (α := α) dref xs) = .ok (n, entryOf dref (xs ++ [r.row n])) := add_ok h h7 hf

/-- No number is free. -/
theorem c73_add_full {r : Request} (h : r.Fine) (h7 : FourCC r.ns → r.value = none ∨ Seven r.desired) {dref : Nat}
    {xs : List Row} (hd : r.desired < 4294967295) (hf : ∀ m, r.desired ≤ m → m < 4294967295 → m ∈ xs.map (·.id)) :
    r.add (entryOf (α := α) dref xs) = .err .badData := add_full h h7 hd hf

/-- The last number is not given. -/
theorem c73_add_last {r : Request} (hd : 4294967295 ≤ r.desired) (e : Entry Bool (Bx α)) :
    r.add e = .err .badData := by
  unfold Request.add addMeta
  cases keyTable e with
  | none => rfl
  | some t => simp only; rw [if_pos hd]

/-- There is always a free number within as many as are used. -/
theorem c73_free (used : List Nat) (d : Nat) : ∃ n, d ≤ n ∧ n ≤ d + used.length ∧ n ∉ used ∧ ∀ m, d ≤ m → m < n → m ∈ used := by
  generalize hl : used.length = l
  induction l generalizing used d with
  | zero =>
    rw [List.length_eq_zero_iff] at hl
    subst hl
    exact ⟨d, by omega, by omega, by simp, fun m h1 h2 => by omega⟩
  | succ l ih =>
    by_cases hd : d ∈ used
    · have hlen : (used.erase d).length = l := by rw [List.length_erase_of_mem hd, hl]; rfl
      obtain ⟨n, h1, h2, h3, h4⟩ := ih (used.erase d) (d + 1) hlen
      refine ⟨n, by omega, by omega, fun h => h3 ((List.mem_erase_of_ne (by omega)).2 h), fun m hm1 hm2 => ?_⟩
      by_cases e : m = d
      · rw [e]; exact hd
      · exact List.mem_of_mem_erase (h4 m (by omega) hm2)
    · exact ⟨d, by omega, by omega, hd, fun m h1 h2 => by omega⟩

/-- Requests get rows, if the numbers do not come to the last one. -/
theorem c73_placed (rs : List Request) (h : ∀ r ∈ rs, r.desired + rs.length < 4294967295) : ∃ xs, Placed rs xs := by
  have key : ∀ n ≤ rs.length, ∃ xs, Placed (rs.take n) xs ∧ xs.length = n := by
    intro n
    induction n with
    | zero => exact fun _ => ⟨[], by rw [List.take_zero]; exact .nil, rfl⟩
    | succ n ih =>
      intro hn
      obtain ⟨xs, h1, h2⟩ := ih (by omega)
      have hlt : n < rs.length := by omega
      obtain ⟨m, m1, m2, m3, m4⟩ := c73_free (xs.map (·.id)) rs[n].desired
      have := h rs[n] (List.getElem_mem hlt)
      rw [List.length_map] at m2
      refine ⟨xs ++ [rs[n].row m], ?_, by simp [h2]⟩
      rw [← List.take_append_getElem hlt]
      exact .snoc h1 ⟨m1, by omega, m3, m4⟩
  obtain ⟨xs, h1, _⟩ := key rs.length (Nat.le_refl _)
  rw [List.take_length] at h1
  exact ⟨xs, h1⟩

theorem placed_nodup {rs : List Request} {xs : List Row} (h : Placed rs xs) : (xs.map (·.id)).Nodup := by
  induction h with
  | nil => simp
  | snoc _ hf ih =>
    rw [List.map_append, List.nodup_append]
    refine ⟨ih, by simp, ?_⟩
    intro a ha b hb hab
    simp only [List.map_cons, List.map_nil, List.mem_singleton] at hb
    subst hb hab
    exact hf.unused ha

theorem addMany_append (rs : List Request) (r : Request) (e : Entry Bool (Bx α)) {ns : List Nat} {e1 e2 : Entry Bool (Bx α)}
    {n : Nat} (h1 : addMany rs e = .ok (ns, e1)) (h2 : r.add e1 = .ok (n, e2)) :
    addMany (rs ++ [r]) e = .ok (ns ++ [n], e2) := by
  induction rs generalizing e ns with
  | nil =>
    simp only [addMany, Res.ok.injEq, Prod.mk.injEq] at h1
    obtain ⟨rfl, rfl⟩ := h1
    simp only [List.nil_append, addMany]
    rw [h2]
    rfl
  | cons q rs ih =>
    simp only [List.cons_append, addMany] at h1 ⊢
    cases hq : q.add e with
    | ok p =>
      obtain ⟨m, e'⟩ := p
      rw [hq, Res.ok_bind] at h1
      rw [Res.ok_bind]
      simp only at h1 ⊢
      cases hr : addMany rs e' with
      | ok p =>
        obtain ⟨ms, e''⟩ := p
        rw [hr, Res.ok_bind] at h1
        simp only [Res.ok.injEq, Prod.mk.injEq] at h1
        obtain ⟨rfl, rfl⟩ := h1
        rw [ih e' hr, Res.ok_bind]
        rfl
      | err x => rw [hr] at h1; cases h1
      | ub => rw [hr] at h1; cases h1
    | err x => rw [hq] at h1; cases h1
    | ub => rw [hq] at h1; cases h1

/-- Any requests, one after the other. -/
theorem c73_session {rs : List Request} {xs : List Row} (hp : Placed rs xs) (h : ∀ r ∈ rs, r.Fine)
    (h7 : ∀ r ∈ rs, FourCC r.ns → r.value = none ∨ Seven r.desired) (dref : Nat) :
    addMany rs (newMebx (α := α) dref) = .ok (xs.map (·.id), entryOf dref xs) := by
  induction hp with
  | nil => rfl
  | @snoc rs xs r n _ hf ih =>
    have h1 := ih (fun q hq => h q (by simp [hq])) fun q hq => h7 q (by simp [hq])
    rw [addMany_append rs r _ h1 (add_ok (h r (by simp)) (h7 r (by simp)) hf)]
    simp [Request.row]

/-! ## Reading the entry -/

/-- The entry with the rows is written and read back. -/
theorem c73_entry {xs : List Row} {dref : Nat} (hd : dref < 65536) (hf : ∀ x ∈ xs, x.Fits)
    (hn : (xs.map (·.id)).Nodup) (hl : 24 + (rowsWire xs).length < 4294967296) :
    Survives (mebx (boxes C)) (fcc 'm' 'e' 'b' 'x') (entryOf dref xs) (entryWire dref xs) := entry_ok C hd hf hn hl

theorem c73_handle {xs : List Row} {dref : Nat} (hd : dref < 65536) (hf : ∀ x ∈ xs, x.Fits)
    (hn : (xs.map (·.id)).Nodup) (hl : 24 + (rowsWire xs).length < 4294967296) :
    getHandle C (entryOf dref xs) = .ok (entryWire dref xs) := (entry_ok C hd hf hn hl).write

theorem c73_count {xs : List Row} {dref : Nat} (hd : dref < 65536) (hf : ∀ x ∈ xs, x.Fits)
    (hn : (xs.map (·.id)).Nodup) (hl : 24 + (rowsWire xs).length < 4294967296) :
    count C (entryWire dref xs) = .ok xs.length := by
  unfold count
  rw [readEntry_ok C hd hf hn hl, Res.ok_bind, keyTable_entryOf]
  simp

/-- What is told about a row is what was put in it; the locale comes with its NUL. -/
theorem c73_config {xs : List Row} {dref : Nat} (hd : dref < 65536) (hf : ∀ x ∈ xs, x.Fits)
    (hn : (xs.map (·.id)).Nodup) (hl : 24 + (rowsWire xs).length < 4294967296) (i : Nat) :
    config C (entryWire dref xs) i = match xs[i]? with
      | some x => .ok x.conf
      | none => .err .badParam := by
  unfold config
  rw [readEntry_ok C hd hf hn hl, Res.ok_bind, keyTable_entryOf]
  simp only [List.getElem?_map]
  cases xs[i]? with
  | none => rfl
  | some x =>
    simp only [Option.map_some]
    rw [Row.find_keyd, Row.find_loca, Row.find_setu]
    rfl

/-- From the requests to what a reader is told: all in one. `hi` leaves out a number 0 and the type of boxes with a 16-byte
type, `hs` an empty locale. -/
theorem c73_metadata_partial {rs : List Request} {xs : List Row} (hp : Placed rs xs) (h : ∀ r ∈ rs, r.Fine)
    (h7 : ∀ r ∈ rs, FourCC r.ns → r.value = none ∨ Seven r.desired) (hns : ∀ r ∈ rs, r.ns < 4294967296)
    (hs : ∀ r ∈ rs, ∀ t ∈ r.locale, t ≠ [] ∧ ∀ b ∈ t, b ≠ 0) (hi : ∀ x ∈ xs, x.id ≠ 0 ∧ x.id ≠ fcc 'u' 'u' 'i' 'd')
    {dref : Nat} (hd : dref < 65536) (hl : 24 + (rowsWire xs).length < 4294967296) :
    ∃ e : Entry Bool (Bx α), ∃ bytes : Bytes, addMany rs (newMebx dref) = .ok (xs.map (·.id), e) ∧
      getHandle C e = .ok bytes ∧ count C bytes = .ok rs.length ∧
      ∀ i r, rs[i]? = some r → ∃ n, r.desired ≤ n ∧ (xs.map (·.id))[i]? = some n ∧
        config C bytes i = .ok ⟨n, r.ns, r.content, r.locale.map fun t => some (t ++ [0]), r.setup⟩ := by
  have key : xs.length = rs.length ∧ (∀ x ∈ xs, ∃ r ∈ rs, ∃ n, x = r.row n ∧ n < 4294967295) ∧
      ∀ (i : Nat) (r : Request), rs[i]? = some r → ∃ n, r.desired ≤ n ∧ xs[i]? = some (r.row n) := by
    clear h h7 hns hs hi hl
    induction hp with
    | nil => simp
    | @snoc rs xs r n _ hf ih =>
      obtain ⟨i1, i2, i3⟩ := ih
      refine ⟨by simp [i1], ?_, ?_⟩
      · intro x hx
        rcases List.mem_append.1 hx with hx | hx
        · obtain ⟨q, hq, m, hm⟩ := i2 x hx
          exact ⟨q, by simp [hq], m, hm⟩
        · rw [List.mem_singleton] at hx
          exact ⟨r, by simp, n, hx, hf.below⟩
      · intro i q hq
        by_cases hlt : i < rs.length
        · rw [List.getElem?_append_left hlt] at hq
          obtain ⟨m, hm1, hm2⟩ := i3 i q hq
          exact ⟨m, hm1, by rw [List.getElem?_append_left (by omega)]; exact hm2⟩
        · rw [List.getElem?_append_right (by omega), List.getElem?_singleton] at hq
          split at hq
          · simp only [Option.some.injEq] at hq
            subst hq
            refine ⟨n, hf.from_, ?_⟩
            rw [List.getElem?_append_right (by omega), List.getElem?_singleton, if_pos (by omega)]
          · cases hq
  obtain ⟨k1, k2, k3⟩ := key
  have hfit : ∀ x ∈ xs, x.Fits := by
    intro x hx
    obtain ⟨r, hr, n, rfl, hn⟩ := k2 x hx
    obtain ⟨h0, hu⟩ := hi _ hx
    have hid : (r.row n).id = n := rfl
    rw [hid] at h0 hu
    refine ⟨⟨by show 0 < n; omega, by show n < _; omega, hu⟩, hns r hr, fun h4 => ?_, hs r hr⟩
    show r.content.length = 4
    rw [(h r hr).four h4, be_length]
  have hnd := placed_nodup hp
  refine ⟨entryOf dref xs, entryWire dref xs, c73_session hp h h7 dref, c73_handle hd hfit hnd hl, ?_, ?_⟩
  · rw [c73_count hd hfit hnd hl, k1]
  · intro i r hr
    obtain ⟨n, h1, h2⟩ := k3 i r hr
    refine ⟨n, h1, by rw [List.getElem?_map, h2]; rfl, ?_⟩
    rw [c73_config hd hfit hnd hl, h2]
    rfl

/-- The table is found wherever it stands among the boxes of an entry. -/
theorem c73_table_among {a b : List (Kid α)} (ha : Readable C a) (hb : Readable C b)
    (ta : ∀ k ∈ a, k.type ≠ fcc 'k' 'e' 'y' 's') (tb : ∀ k ∈ b, k.type ≠ fcc 'k' 'e' 'y' 's')
    {ks : List (Kid (Key α))} (hk : Readable (key C) ks) (hn : (ids (vals ks)).Nodup)
    {reserved : Bytes} (h6 : reserved.length = 6) {dref : Nat} (hd : dref < 65536)
    (hl : 24 + (wire a).length + (wire ks).length + (wire b).length < 4294967296) :
    count C (box (fcc 'm' 'e' 'b' 'x') (headWire reserved dref ++
      (wire a ++ (box (fcc 'k' 'e' 'y' 's') (wire ks) ++ wire b)))) = .ok ks.length := by
  let k : Kid (Bx α) := ⟨fcc 'k' 'e' 'y' 's', .keys (vals ks), box (fcc 'k' 'e' 'y' 's') (wire ks)⟩
  have hr : Readable (boxes C) (outer a ++ k :: outer b) := by
    intro c hc
    rcases List.mem_append.1 hc with hc | hc
    · exact outer_readable ha ta c hc
    · rcases List.mem_cons.1 hc with rfl | hc
      · exact table_reads hk hn (by omega)
      · exact outer_readable hb tb c hc
  have hw : wire (outer a ++ k :: outer b) = wire a ++ (box (fcc 'k' 'e' 'y' 's') (wire ks) ++ wire b) := by
    have e : wire (outer a ++ k :: outer b) = wire (outer a) ++ (k.bytes ++ wire (outer b)) := by simp [wire]
    rw [e, wire_outer, wire_outer]
  have hs : adds mebxAdd ([], false) (outer a ++ k :: outer b) =
      .ok (((vals (stay a)).map Bx.other ++ [.keys (vals ks)]) ++ (vals (stay b)).map Bx.other, true) := by
    rw [adds_append (adds_outer ta false [])]
    have hf : ¬ Tree.isFree k.type = true := show ¬ Tree.isFree (fcc 'k' 'e' 'y' 's') = true by decide
    simp only [adds]
    rw [if_neg hf]
    unfold mebxAdd
    rw [if_pos (show k.type = typeKeys from rfl)]
    simp only [Bool.false_eq_true, if_false, Res.bind, List.nil_append]
    exact adds_outer tb true _
  have hlen : (wire (outer a ++ k :: outer b)).length = 8 + (wire a).length + (wire ks).length + (wire b).length := by
    rw [hw]
    simp only [List.length_append, box_length]
    omega
  have := mebx_reads_list hr hs h6 hd (by omega)
  rw [hw] at this
  unfold count
  rw [this, Res.ok_bind]
  have ho : ∀ l : List α, (l.map Bx.other).findSome? Bx.keys? = none := by
    intro l
    induction l with
    | nil => rfl
    | cons x l ih => simp [Bx.keys?]
  have he : keyTable (⟨fcc 'm' 'e' 'b' 'x', reserved, dref, true, ((vals (stay a)).map Bx.other ++ [.keys (vals ks)]) ++
      (vals (stay b)).map Bx.other⟩ : Entry Bool (Bx α)) = some (vals ks) := by
    show List.findSome? _ _ = _
    rw [List.findSome?_append, List.findSome?_append, ho]
    rfl
  rw [he]
  simp [vals]

/-- An entry without a table. -/
theorem c73_no_table {a : List (Kid α)} (ha : Readable C a) (ta : ∀ k ∈ a, k.type ≠ fcc 'k' 'e' 'y' 's')
    {reserved : Bytes} (h6 : reserved.length = 6) {dref : Nat} (hd : dref < 65536)
    (hl : 16 + (wire a).length < 4294967296) (i : Nat) :
    let bytes := box (fcc 'm' 'e' 'b' 'x') (headWire reserved dref ++ wire a)
    count C bytes = .err .badData ∧ config C bytes i = .err .badData := by
  intro bytes
  have := mebx_reads_list (outer_readable ha ta) (adds_outer ta false []) h6 hd (by rw [wire_outer]; exact hl)
  rw [wire_outer] at this
  have ho : ∀ l : List α, (l.map Bx.other).findSome? Bx.keys? = none := by
    intro l
    induction l with
    | nil => rfl
    | cons x l ih => simp [Bx.keys?]
  have he : keyTable (⟨fcc 'm' 'e' 'b' 'x', reserved, dref, false, [] ++ (vals (stay a)).map Bx.other⟩ :
      Entry Bool (Bx α)) = none := ho _
  unfold count config
  rw [this, Res.ok_bind, Res.ok_bind, he]
  exact ⟨rfl, rfl⟩

/-! ## Requests that are refused -/

theorem c73_no_value {r : Request} (hn : ¬ FourCC r.ns) (hv : r.value = none ∨ r.value = some []) {dref : Nat}
    {xs : List Row} (hd : r.desired < 4294967295) : r.add (entryOf (α := α) dref xs) = .err .badParam := by
  unfold Request.add addMeta
  rw [keyTable_entryOf]
  simp only
  rw [if_neg (by omega)]
  rcases hv with hv | hv
  · rw [hv]
    simp only [keyValue]
    rw [if_neg (fun h => hn (four_iff.1 h))]
    rfl
  · rw [hv]
    simp only [keyValue]
    rw [if_neg (fun h => hn (four_iff.1 h)), Res.ok_bind]
    unfold newKeyd
    rw [if_neg (fun h => hn (four_iff.1 h.2)), if_pos (show ([] : Bytes).length = 0 from rfl)]
    rfl

/-- A value of five or more bytes for a four-character key. -/
theorem c73_long_value {r : Request} (hn : FourCC r.ns) {v : Bytes} (hv : r.value = some v) (hl : 4 < v.length) {dref : Nat}
    {xs : List Row} (hd : r.desired < 4294967295) : r.add (entryOf (α := α) dref xs) = .err .badParam := by
  unfold Request.add addMeta
  rw [keyTable_entryOf]
  simp only
  rw [if_neg (by omega), hv]
  match v, hl with
  | a :: b :: c :: d :: l, hl =>
    simp only [keyValue]
    rw [if_pos (four_iff.2 hn), if_pos (Or.inr (by omega))]
    rfl

/-- A four-character value that is not the number. -/
theorem c73_wrong_value {r : Request} (hn : FourCC r.ns) {m : Nat} (hm : m < 4294967296) (h7 : Seven m)
    (hv : r.value = some (be 4 m)) (hne : r.desired ≠ m) {dref : Nat} {xs : List Row} (hd : r.desired < 4294967295) :
    r.add (entryOf (α := α) dref xs) = .err .badParam := by
  unfold Request.add addMeta
  rw [keyTable_entryOf]
  simp only
  rw [if_neg (by omega), hv, be4]
  simp only [keyValue]
  rw [if_pos (four_iff.2 hn), code_be hm h7, if_pos (Or.inl hne)]
  rfl

/-- A setup that is empty, or in the namespace that has none. -/
theorem c73_bad_setup {r : Request} (hn : FourCC r.ns → r.content = be 4 r.desired)
    (h' : ¬ FourCC r.ns → ∃ v, r.value = some v ∧ v ≠ []) (h7 : FourCC r.ns → r.value = none ∨ Seven r.desired) {d : Bytes}
    (hs : r.setup = some d) (hb : d = [] ∨ r.ns = fcc 'u' 'i' 's' 'o') {dref : Nat} {xs : List Row} {n : Nat}
    (hf : Free (xs.map (·.id)) r.desired n) : r.add (entryOf (α := α) dref xs) = .err .badParam := by
  have h : Request.Fine { r with setup := none } := ⟨hn, h', fun d hd => by cases hd⟩
  have hd : r.desired < 4294967295 := Nat.lt_of_le_of_lt hf.from_ hf.below
  unfold Request.add addMeta
  rw [keyTable_entryOf]
  simp only
  have k1 := keyValue_ok h (by show r.desired < _; omega) h7
  have k2 := newKeyd_ok h
  simp only at k1 k2
  rw [if_neg (by omega), k1, Res.ok_bind, k2, Res.ok_bind]
  have hi : (xs.map (Row.key (α := α))).map (·.id) = xs.map (·.id) := ids_rows xs
  rw [hi, search_some hf.from_ (by have := hf.below; omega) hf.unused hf.first]
  simp only
  rw [hs]
  simp only [newSetu]
  rcases hb with hb | hb
  · subst hb
    by_cases hu : r.ns = uiso
    · rw [if_pos hu]; rfl
    · rw [if_neg hu, if_pos (show ([] : Bytes).length = 0 from rfl)]; rfl
  · rw [if_pos (show r.ns = uiso from hb)]; rfl

/-! ## What goes wrong -/

/-- A value with a byte over 127 in its last three bytes is refused though it is the number. -/
theorem c73_high_refused {r : Request} (hn : FourCC r.ns) (hv : r.value = some (be 4 r.desired)) (h7 : ¬ Seven r.desired)
    (hd : r.desired < 0xFF800000) {dref : Nat} {xs : List Row} : r.add (entryOf (α := α) dref xs) = .err .badParam := by
  have hc : r.desired ≠ code (UInt8.ofNat (r.desired / 16777216)) (UInt8.ofNat (r.desired / 65536))
      (UInt8.ofNat (r.desired / 256)) (UInt8.ofNat r.desired) := by
    unfold code
    unfold Seven at h7
    simp only [ofNat_toNat_mod]
    split
    · omega
    · split
      · omega
      · split <;> omega
  unfold Request.add addMeta
  rw [keyTable_entryOf]
  simp only
  rw [if_neg (by omega), hv, be4]
  simp only [keyValue]
  rw [if_pos (four_iff.2 hn), if_pos (Or.inl hc)]
  rfl

/-- A value is taken though it is not the number: its first three bytes can be anything. -/
theorem c73_high_taken {r : Request} (hn : FourCC r.ns) {a b c d : UInt8} (hd : 128 ≤ d.toNat)
    (hr : r.desired = 0xFFFFFF00 + d.toNat) (hv : r.value = some [a, b, c, d]) (hs : r.setup = none) {dref : Nat}
    {xs : List Row} {n : Nat} (hf : Free (xs.map (·.id)) r.desired n) :
    r.add (entryOf (α := α) dref xs) = .ok (n, entryOf dref (xs ++ [⟨n, r.ns, [a, b, c, d], r.locale, none⟩])) := by
  have hd' : r.desired < 4294967295 := Nat.lt_of_le_of_lt hf.from_ hf.below
  have hc : code a b c d = r.desired := by unfold code; rw [if_pos hd, hr]
  unfold Request.add addMeta
  rw [keyTable_entryOf]
  simp only
  rw [if_neg (by omega), hv]
  simp only [keyValue]
  rw [if_pos (four_iff.2 hn), hc, if_neg (by simp), Res.ok_bind]
  unfold newKeyd
  rw [if_neg (by simp), if_neg (by simp), Res.ok_bind]
  have hi : (xs.map (Row.key (α := α))).map (·.id) = xs.map (·.id) := ids_rows xs
  rw [hi, search_some hf.from_ (by have := hf.below; omega) hf.unused hf.first]
  simp only
  rw [hs]
  simp only [newSetu]
  rw [Res.ok_bind, addKey_eq, if_neg (by rw [ids_rows]; exact hf.unused), Res.ok_bind]
  simp [setTable, entryOf, Row.key]

/-- A four-character value of less than four bytes is read past its end. -/
theorem c73_short_value {r : Request} (hn : FourCC r.ns) {v : Bytes} (hv : r.value = some v) (hl : v.length < 4) {dref : Nat}
    {xs : List Row} (hd : r.desired < 4294967295) : r.add (entryOf (α := α) dref xs) = .ub := by
  unfold Request.add addMeta
  rw [keyTable_entryOf]
  simp only
  rw [if_neg (by omega), hv]
  match v, hl with
  | [], _ | [_], _ | [_, _], _ | [_, _, _], _ =>
    simp only [keyValue]
    rw [if_pos (four_iff.2 hn)]
    rfl

/-- A row with an empty locale: the entry cannot be written, since the size does not count the NUL. -/
theorem c73_empty_locale {a b : List Row} {x : Row} {dref : Nat} (ha : ∀ r ∈ a, r.Fits) (hb : ∀ r ∈ b, r.Fits)
    (hx : FourCC x.ns → x.value.length = 4) (h0 : x.id ≠ 0) (hn : x.ns < 4294967296) (hc : x.locale = some [])
    (hl : 24 + ((a ++ x :: b).map Row.bytes).sum < 4294967296) :
    getHandle C (entryOf dref (a ++ x :: b)) = .err .ioErr := by
  have hm : ((a ++ x :: b).map Row.bytes).sum = (a.map Row.bytes).sum + (x.bytes + (b.map Row.bytes).sum) := by
    rw [List.map_append, List.sum_append, List.map_cons, List.sum_cons]
  have hxl : ∀ t ∈ x.locale, ∀ b ∈ t, b ≠ 0 := by
    intro t ht
    rw [hc] at ht
    cases ht
    simp
  refine getHandle_stops C (o := .err .ioErr) ha ?_ hl ?_
  · intro r hr t ht
    rcases List.mem_append.1 hr with hr | hr
    · exact ((ha r hr).locale t ht).2
    · rcases List.mem_cons.1 hr with rfl | hr
      · exact hxl t ht
      · exact ((hb r hr).locale t ht).2
  · rw [Row.size C hxl (by omega)]
    have hv : 20 + x.value.length + 8 ≤ x.bytes := by
      unfold Row.bytes; rw [hc]; simp only [Option.elim_some, if_true]; omega
    let k : Kid (Sub α) := ⟨fcc 'k' 'e' 'y' 'd', .keyd ⟨x.ns, x.value⟩, box (fcc 'k' 'e' 'y' 'd') (be 4 x.ns ++ x.value)⟩
    have hk : Prot.WritesAll (sub C) [k] := by
      intro c hc
      rw [List.mem_singleton] at hc
      subst hc
      exact Prot.survives_writes (keyd_survives C hn hx (by show 12 + x.value.length < _; omega))
    have hlo : runW ((sub C).size (.loca (some [0]))) ((sub C).ser (.loca (some [0]))) = (Flaw.err .ioErr).res := by rfl
    have := stops_list hk hlo (x.setup.toList.map Sub.setu)
    have hw : (wire [k]).length = 12 + x.value.length := by
      simp [wire, k, box]; omega
    have hz : (sub C).size (.loca (some [0])) = 8 := by rfl
    rw [hw, hz] at this
    refine Stops.run (n := 8 + (12 + x.value.length + 8)) ?_ (by omega) (by omega)
    show Stops (if x.id = 0 then W.bad else _) _ _
    rw [if_neg h0]
    refine Stops.after (emits_serBase _ _) (Stops.left ?_)
    have e : x.key.subs = vals [k] ++ Sub.loca (some [0]) :: x.setup.toList.map Sub.setu := by
      unfold Row.key; rw [hc]; rfl
    rw [e]
    exact this

/-- A row with the number 0: the assertion of the header fails when the entry is written. -/
theorem c73_zero {a b : List Row} {x : Row} {dref : Nat} (ha : ∀ r ∈ a, r.Fits)
    (hn : ∀ r ∈ a ++ x :: b, ∀ t ∈ r.locale, ∀ b ∈ t, b ≠ 0) (h0 : x.id = 0)
    (hl : 24 + ((a ++ x :: b).map Row.bytes).sum < 4294967296) : getHandle C (entryOf dref (a ++ x :: b)) = .ub := by
  refine getHandle_stops C (o := .ub) ha hn hl ?_
  show runW _ (if x.id = 0 then W.bad else _) = _
  rw [if_pos h0]
  rfl

/-- A key without a declaration: it is counted, but to ask for it follows a null pointer. -/
theorem c73_no_declaration {ks : List (Kid (Key α))} (h : Readable (key C) ks) (hn : (ids (vals ks)).Nodup) {dref : Nat}
    (hd : dref < 65536) (hl : 24 + (wire ks).length < 4294967296) {i : Nat} {k : Kid (Key α)} (hi : ks[i]? = some k)
    (hk : k.val.subs.filterMap Sub.keyd? = []) :
    let bytes := box (fcc 'm' 'e' 'b' 'x') (headWire [0, 0, 0, 0, 0, 0] dref ++ box (fcc 'k' 'e' 'y' 's') (wire ks))
    count C bytes = .ok ks.length ∧ config C bytes i = .ub := by
  have hr := mebx_reads (table_reads h hn (by omega)) hd (by rw [box_length]; omega)
  constructor
  · unfold count
    rw [hr, Res.ok_bind]
    show Res.ok (vals ks).length = _
    rw [vals, List.length_map]
  · unfold config
    rw [hr, Res.ok_bind]
    show (match (vals ks)[i]? with | none => _ | some k => _) = _
    rw [vals, List.getElem?_map, hi]
    simp only [Option.map_some]
    rw [findSome_filterMap, hk]
    rfl

/-- A key with the number `uuid` and a value of four bytes: the declaration is taken for the 16-byte type. -/
theorem c73_uuid {x : Row} (hi : x.id = fcc 'u' 'u' 'i' 'd') (hv : x.value.length = 4) (hn : x.ns < 4294967296)
    (hlo : x.locale = none) (hs : x.setup = none) {dref : Nat} (hd : dref < 65536) :
    getHandle C (entryOf dref [x]) = .ok (entryWire dref [x]) ∧ count C (entryWire dref [x]) = .ok 1 ∧
      config C (entryWire dref [x]) 0 = .ub := by
  have hw : x.wire = box (fcc 'u' 'u' 'i' 'd') (box (fcc 'k' 'e' 'y' 'd') (be 4 x.ns ++ x.value)) := by
    unfold Row.wire; rw [hi, hlo, hs]; simp
  have hlen : (box (fcc 'k' 'e' 'y' 'd') (be 4 x.ns ++ x.value)).length = 16 := by simp [box, hv]
  have hrw : rowsWire [x] = x.wire := by simp [rowsWire]
  have hxl : x.wire.length = 24 := by rw [hw, box_length, hlen]
  -- writing
  let kd : Kid (Sub α) := ⟨fcc 'k' 'e' 'y' 'd', .keyd ⟨x.ns, x.value⟩, box (fcc 'k' 'e' 'y' 'd') (be 4 x.ns ++ x.value)⟩
  have hkd : Prot.WritesAll (sub C) [kd] := by
    intro c hc
    rw [List.mem_singleton] at hc
    subst hc
    exact Prot.survives_writes (keyd_survives C hn (fun _ => hv) (by show 12 + x.value.length < _; omega))
  have ekd : Ent.wire [kd] = box (fcc 'k' 'e' 'y' 'd') (be 4 x.ns ++ x.value) := by simp [Ent.wire, kd]
  have esub : x.key.subs = vals [kd] := by unfold Row.key; rw [hlo, hs]; rfl
  have hkey : Prot.Writes (key C) x.key x.wire := by
    rw [hw]
    have hz : listSize (sub C) 8 (vals [kd]) = 8 + (box (fcc 'k' 'e' 'y' 'd') (be 4 x.ns ++ x.value)).length := by
      rw [Prot.listSize_writes hkd (by rw [ekd, hlen]; omega), ekd]
    refine Prot.Writes.of (by show listSize (sub C) 8 x.key.subs = _; rw [esub, hz]) ?_ (by omega)
    show EmitsFull (if x.id = 0 then W.bad else serBase (listSize (sub C) 8 x.key.subs) x.id ;; serList (sub C) x.key.subs ;;
      W.assertFull) _
    rw [if_neg (by rw [hi]; decide), esub, hz, hi]
    have := (Prot.emits_writes hkd)
    rw [ekd] at this
    exact (emits_serBase _ _).then this.thenAssert
  let kk : Kid (Key α) := ⟨fcc 'u' 'u' 'i' 'd', x.key, x.wire⟩
  have hkk : Prot.WritesAll (key C) [kk] := by
    intro c hc
    rw [List.mem_singleton] at hc
    subst hc
    exact hkey
  have ekk : Ent.wire [kk] = x.wire := by simp [Ent.wire, kk]
  have htab : Prot.Writes (boxes C) (.keys [x.key]) (box (fcc 'k' 'e' 'y' 's') x.wire) := by
    have hz : listSize (key C) 8 (vals [kk]) = 8 + x.wire.length := by
      rw [Prot.listSize_writes hkk (by rw [ekk]; omega), ekk]
    refine Prot.Writes.of hz ?_ (by omega)
    show EmitsFull (serBase (listSize (key C) 8 (vals [kk])) typeKeys ;; serList (key C) (vals [kk]) ;; W.assertFull) _
    rw [hz]
    have := (Prot.emits_writes hkk)
    rw [ekk] at this
    exact (emits_serBase _ _).then this.thenAssert
  let kt : Kid (Bx α) := ⟨fcc 'k' 'e' 'y' 's', .keys [x.key], box (fcc 'k' 'e' 'y' 's') x.wire⟩
  have hkt : Prot.WritesAll (boxes C) [kt] := by
    intro c hc
    rw [List.mem_singleton] at hc
    subst hc
    exact htab
  have ekt : Ent.wire [kt] = box (fcc 'k' 'e' 'y' 's') x.wire := by simp [Ent.wire, kt]
  have hent : Prot.Writes (mebx (boxes C)) (entryOf dref [x]) (entryWire dref [x]) := by
    unfold entryWire
    rw [hrw]
    have hp : (headWire [0, 0, 0, 0, 0, 0] dref ++ box (fcc 'k' 'e' 'y' 's') x.wire).length = 40 := by
      simp only [List.length_append, box_length, hxl, headWire, be_length, List.length_cons, List.length_nil]
    have hz : (mebx (boxes C)).size (entryOf dref [x]) =
        8 + (headWire [0, 0, 0, 0, 0, 0] dref ++ box (fcc 'k' 'e' 'y' 's') x.wire).length := by
      show listSize (boxes C) 16 (vals [kt]) = _
      rw [Prot.listSize_writes hkt (by rw [ekt, box_length]; omega), ekt, hp, box_length, hxl]
    refine Prot.Writes.of hz ?_ (by omega)
    have e : (mebx (boxes C)).ser (entryOf dref [x]) = Entry.serialize (boxes C)
      ((mebx (boxes C)).size (entryOf dref [x])) (fun _ => W.skip) (entryOf dref [x]) := rfl
    rw [e, hz]
    unfold Entry.serialize
    rw [if_neg (show ¬ (entryOf (α := α) dref [x]).type = 0 from show ¬ fcc 'm' 'e' 'b' 'x' = 0 by decide)]
    have := (Prot.emits_writes hkt)
    rw [ekt] at this
    unfold headWire
    rw [List.append_assoc]
    exact (emits_serBase _ _).then ((emits_bytes [0, 0, 0, 0, 0, 0]).then ((emits_put16 _).then
      ((emits_skip).then this.thenAssert)))
  -- reading
  have hread : Reads (key C) (fcc 'u' 'u' 'i' 'd') ⟨fcc 'u' 'u' 'i' 'd', []⟩ x.wire := by
    refine ⟨by omega, fun rest => ⟨⟨24, fcc 'u' 'u' 'i' 'd', box (fcc 'k' 'e' 'y' 'd') (be 4 x.ns ++ x.value), 0, 24⟩, rfl,
      by rw [hxl], ?_⟩⟩
    rw [hw, box_eq, hlen, List.append_assoc, List.append_assoc]
    have hh : parseHeader (be 4 (8 + 16) ++ (be 4 (fcc 'u' 'u' 'i' 'd') ++
        (box (fcc 'k' 'e' 'y' 'd') (be 4 x.ns ++ x.value) ++ rest))) =
        .ok (⟨24, fcc 'u' 'u' 'i' 'd', box (fcc 'k' 'e' 'y' 'd') (be 4 x.ns ++ x.value), 0, 24⟩, rest) := by
      unfold parseHeader
      rw [rd32_be, Res.ok_bind]
      simp only
      rw [show (8 + 16) % 4294967296 = 24 from rfl, if_neg (show ¬ 24 = 0 by decide), if_neg ?_, rd32_be, Res.ok_bind]
      · simp only
        rw [if_pos (by decide), if_neg (by simp only [List.length_append, hlen]; omega), Res.ok_bind]
        simp only
        rw [if_neg (show ¬ 24 = 1 by decide), Res.ok_bind]
        simp only
        rw [if_neg (by decide), ← hlen, List.take_left, List.drop_left]
        rfl
      · simp only [List.length_append, be_length, hlen]
        omega
    unfold parseAtom
    rw [hh]
    simp only
    have ha : (key C).parse ⟨24, fcc 'u' 'u' 'i' 'd', box (fcc 'k' 'e' 'y' 'd') (be 4 x.ns ++ x.value), 0, 24⟩ ⟨rest, 24⟩ =
        .ok (⟨fcc 'u' 'u' 'i' 'd', []⟩, ⟨rest, 24⟩) := by
      have := (ParsesAt.bind_nil (f := fun l => (pure ⟨fcc 'u' 'u' 'i' 'd', l⟩ : P (Key α)))
        (parsesAt_addAll (C := sub C) (ks := []) (add := subAdd) (init := []) (v := []) (size := 24) (k := 24)
          (by intro k hk; cases hk) rfl (by omega) rfl) ((parses_pure _).at _)) rest
      exact this
    rw [ha]
    simp only [Res.ok.injEq, Prod.mk.injEq, true_and]
    simp only [List.length_append, be_length, hlen]
    rw [if_neg (by decide), show 24 - (4 + (4 + (16 + rest.length)) - rest.length) = 0 by omega]
    rfl
  have hall : Readable (key C) [⟨fcc 'u' 'u' 'i' 'd', ⟨fcc 'u' 'u' 'i' 'd', []⟩, x.wire⟩] := by
    intro c hc
    rw [List.mem_singleton] at hc
    subst hc
    exact hread
  have := c73_no_declaration hall (by simp [ids, vals]) hd (by simp [Ent.wire, hxl]) (i := 0) rfl rfl
  have ew : Ent.wire [(⟨fcc 'u' 'u' 'i' 'd', ⟨fcc 'u' 'u' 'i' 'd', []⟩, x.wire⟩ : Kid (Key α))] = rowsWire [x] := by
    simp [Ent.wire, rowsWire]
  rw [ew] at this
  exact ⟨hent.write, this.1, this.2⟩

/-! ## Keys of QuickTime -/

theorem header_zero {n : Nat} (hn : GoodType n) {r : Bytes} (hl : 8 + r.length < 4294967296) :
    parseHeader (be 4 0 ++ (be 4 n ++ r)) = .ok (⟨8 + r.length, n, [], 0, 8⟩, r) := by
  have hlen : (be 4 n ++ r).length + 4 = 8 + r.length := by simp; omega
  unfold parseHeader
  rw [rd32_be, Res.ok_bind]
  simp only
  simp only [show 0 % 4294967296 = 0 from rfl, if_true]
  rw [hlen, if_pos hl, if_neg (by simp only [List.length_append, be_length]; omega),
    rd32_be, Res.ok_bind]
  simp only
  rw [Nat.mod_eq_of_lt hn.2.1, if_neg hn.uuid, Res.ok_bind]
  simp only
  rw [if_neg (by omega), Res.ok_bind]
  simp only
  rw [if_neg (by omega)]

/-- A size of 0: all up to the end of the stream is taken for a key. -/
theorem key_zero {ks : List (Kid (Sub α))} (h : Readable (sub C) ks) (h1 : Once (vals (stay ks))) {n : Nat} (hn : GoodType n)
    (hl : 8 + (wire ks).length < 4294967296) : parseAtom (key C).parse (be 4 0 ++ (be 4 n ++ wire ks)) =
      .ok (⟨n, vals (stay ks)⟩, ⟨8 + (wire ks).length, n, [], 0, 8⟩, []) := by
  unfold parseAtom
  rw [header_zero hn (by omega)]
  simp only
  have hp : ParsesAt ((key C).parse ⟨8 + (wire ks).length, n, [], 0, 8⟩) 8 (wire ks) ⟨n, vals (stay ks)⟩ := by
    refine ParsesAt.bind_nil (parsesAt_addAll h rfl (by show 8 + _ < _; omega) ?_) ((parses_pure _).at _)
    have := adds_sub (acc := []) (by simp [Once]) ks
    rwa [List.nil_append, if_pos h1] at this
  have := hp []
  rw [List.append_nil] at this
  rw [this]
  simp

/-- A table of QuickTime at the end of an entry in a handle: its first word, which is 0, is taken for a size up to the end
of the stream, and the count of keys for a number. There is one key, without a declaration. -/
theorem c73_quicktime {ks : List (Kid (Sub α))} (h : Readable (sub C) ks) (h1 : Once (vals (stay ks)))
    (hk : (vals (stay ks)).filterMap Sub.keyd? = []) {n dref : Nat} (hn : GoodType n) (hd : dref < 65536)
    (hl : 32 + (wire ks).length < 4294967296) :
    let bytes := box (fcc 'm' 'e' 'b' 'x') (headWire [0, 0, 0, 0, 0, 0] dref ++
      box (fcc 'k' 'e' 'y' 's') (be 4 0 ++ (be 4 n ++ wire ks)))
    count C bytes = .ok 1 ∧ config C bytes 0 = .ub := by
  intro bytes
  have hkey := key_zero h h1 hn (by omega)
  have hlen : (be 4 0 ++ (be 4 n ++ wire ks)).length = 8 + (wire ks).length := by simp; omega
  have htab : parseAtom (boxes C).parse (box (fcc 'k' 'e' 'y' 's') (be 4 0 ++ (be 4 n ++ wire ks))) =
      .ok (.keys [⟨n, vals (stay ks)⟩], ⟨16 + (wire ks).length, fcc 'k' 'e' 'y' 's', [], 0, 8⟩, []) := by
    have hh := header_box (type := fcc 'k' 'e' 'y' 's') (payload := be 4 0 ++ (be 4 n ++ wire ks)) (by omega)
      (by unfold GoodType; decide) []
    rw [List.append_nil, List.append_nil, hlen, show 8 + (8 + (wire ks).length) = 16 + (wire ks).length by omega] at hh
    unfold parseAtom
    rw [hh]
    simp only
    have e : ∀ hd : Hdr, hd.type = fcc 'k' 'e' 'y' 's' → (boxes C).parse hd = P.as .keys ((table C).parse hd) :=
      fun hd h => if_pos h
    have hp : (boxes C).parse ⟨16 + (wire ks).length, fcc 'k' 'e' 'y' 's', [], 0, 8⟩ ⟨be 4 0 ++ (be 4 n ++ wire ks), 8⟩ =
        .ok (.keys [⟨n, vals (stay ks)⟩], ⟨[], 16 + (wire ks).length⟩) := by
      rw [e _ rfl]
      unfold P.as
      rw [P.bind_apply]
      have ht : (table C).parse ⟨16 + (wire ks).length, fcc 'k' 'e' 'y' 's', [], 0, 8⟩ ⟨be 4 0 ++ (be 4 n ++ wire ks), 8⟩ =
          .ok ([⟨n, vals (stay ks)⟩], ⟨[], 16 + (wire ks).length⟩) := by
        let p : P (List (Key α)) := fun s => tableLoop C (s.rest.length + 1) (16 + (wire ks).length) [] s
        show (p >>= _) _ = _
        rw [P.bind_apply]
        have hpe : p ⟨be 4 0 ++ (be 4 n ++ wire ks), 8⟩ = .ok ([⟨n, vals (stay ks)⟩], ⟨[], 16 + (wire ks).length⟩) := by
          show tableLoop C ((be 4 0 ++ (be 4 n ++ wire ks)).length + 1) _ _ _ = _
          rw [hlen, show 8 + (wire ks).length + 1 = (7 + (wire ks).length + 1) + 1 by omega]
          simp only [tableLoop]
          rw [if_pos (by omega), hkey]
          simp only
          rw [Nat.mod_eq_of_lt (by omega), if_neg (by omega)]
          show (if (8 + (8 + (wire ks).length) < 16 + (wire ks).length) then _ else _ : Res _) = _
          rw [if_neg (by omega), show 8 + (8 + (wire ks).length) = 16 + (wire ks).length by omega]
          rfl
        rw [hpe]
        show (if 16 + (wire ks).length ≠ 16 + (wire ks).length then P.fail .badData else pure _ : P _) _ = _
        rw [if_neg (by simp)]
        rfl
      rw [ht]
      rfl
    rw [hp]
    simp
  have hentry : readEntry C bytes = .ok ⟨fcc 'm' 'e' 'b' 'x', [0, 0, 0, 0, 0, 0], dref, true,
      [.keys [⟨n, vals (stay ks)⟩]]⟩ := by
    have hpl : (headWire [0, 0, 0, 0, 0, 0] dref ++ box (fcc 'k' 'e' 'y' 's') (be 4 0 ++ (be 4 n ++ wire ks))).length =
        24 + (wire ks).length := by
      simp only [List.length_append, box_length, headWire, be_length, List.length_cons, List.length_nil]
      omega
    have hh := header_box (type := fcc 'm' 'e' 'b' 'x')
      (payload := headWire [0, 0, 0, 0, 0, 0] dref ++ box (fcc 'k' 'e' 'y' 's') (be 4 0 ++ (be 4 n ++ wire ks))) (by omega)
      (by unfold GoodType; decide) []
    rw [List.append_nil, List.append_nil, hpl, show 8 + (24 + (wire ks).length) = 32 + (wire ks).length by omega] at hh
    have hp : (mebx (boxes C)).parse ⟨32 + (wire ks).length, fcc 'm' 'e' 'b' 'x', [], 0, 8⟩
        ⟨headWire [0, 0, 0, 0, 0, 0] dref ++ box (fcc 'k' 'e' 'y' 's') (be 4 0 ++ (be 4 n ++ wire ks)), 8⟩ =
        .ok (⟨fcc 'm' 'e' 'b' 'x', [0, 0, 0, 0, 0, 0], dref, true, [.keys [⟨n, vals (stay ks)⟩]]⟩,
          ⟨[], 32 + (wire ks).length⟩) := by
      have h6 : ([0, 0, 0, 0, 0, 0] : Bytes).length = 6 := rfl
      show (getBytes 6 >>= _) _ = _
      unfold headWire
      rw [List.append_assoc, P.bind_apply, (parses_getBytes h6).at 8]
      simp only
      rw [P.bind_apply, (parses_get16' hd).at _]
      simp only [h6, be_length]
      rw [P.bind_apply]
      have ha : addAll (boxes C) mebxAdd ([], false) (32 + (wire ks).length)
          ⟨box (fcc 'k' 'e' 'y' 's') (be 4 0 ++ (be 4 n ++ wire ks)), 8 + 6 + 2⟩ =
          .ok (([.keys [⟨n, vals (stay ks)⟩]], true), ⟨[], 32 + (wire ks).length⟩) := by
        unfold addAll
        rw [P.bind_apply]
        have hx : addList (boxes C) mebxAdd ([], false) (32 + (wire ks).length)
            ⟨box (fcc 'k' 'e' 'y' 's') (be 4 0 ++ (be 4 n ++ wire ks)), 8 + 6 + 2⟩ =
            .ok (([.keys [⟨n, vals (stay ks)⟩]], true), ⟨[], 32 + (wire ks).length⟩) := by
          unfold addList
          simp only [box_length, hlen]
          rw [show 8 + (8 + (wire ks).length) + 1 = (15 + (wire ks).length + 1) + 1 by omega]
          simp only [addLoop]
          rw [if_pos (by omega), htab]
          simp only
          rw [if_neg (show ¬ Tree.isFree (fcc 'k' 'e' 'y' 's') = true by decide)]
          unfold mebxAdd
          rw [if_pos (show fcc 'k' 'e' 'y' 's' = typeKeys from rfl)]
          simp only
          rw [Nat.mod_eq_of_lt (by omega)]
          show (if (8 + 6 + 2 + (16 + (wire ks).length) < 32 + (wire ks).length) then _ else _ : Res _) = _
          rw [if_neg (by omega), show 8 + 6 + 2 + (16 + (wire ks).length) = 32 + (wire ks).length by omega]
          rfl
        rw [hx]
        show (if 32 + (wire ks).length ≠ 32 + (wire ks).length then P.fail .badData else pure _ : P _) _ = _
        rw [if_neg (by simp)]
        rfl
      rw [ha]
      rfl
    unfold readEntry
    rw [show parseHeader bytes = _ from hh]
    simp only
    rw [if_pos (by decide)]
    unfold parseAtom
    rw [show parseHeader bytes = _ from hh]
    simp only
    rw [hp]
  constructor
  · unfold count
    rw [hentry, Res.ok_bind]
    rfl
  · unfold config
    rw [hentry, Res.ok_bind]
    show (match (vals (stay ks)).findSome? Sub.keyd? with | none => _ | some d => _) = _
    rw [findSome_filterMap, hk]
    rfl

theorem parses_quicktime {xs : List (Nat × Bytes)} (h : SampleFits xs) (hl : xs.length < 4294967296) :
    Parses quicktime (qtWire xs) () := by
  unfold quicktime qtWire
  refine (parses_get32' (by decide)).bind ((parses_get32' hl).bind ?_)
  refine Parses.bind_nil (a := xs.map fun _ => ()) (parses_repeat_map xs (fun x => box x.1 x.2) (fun _ => ()) ?_ rfl) (parses_pure _)
  intro x hx
  obtain ⟨h1, h2⟩ := h x hx
  rw [box_eq, List.append_assoc]
  refine (parses_get32' h2).bind ((parses_get32' h1).bind ?_)
  have e : (8 + x.2.length + 4294967296 - 8) % 4294967296 = x.2.length := by omega
  rw [e]
  exact (parses_getBytes rfl).bind_nil (parses_pure _)

/-- A table of QuickTime with something after it, where all up to the end of the stream can be read as a key (`hk`): the
keys are skipped, and none is in the table. -/
theorem c73_quicktime_more {xs : List (Nat × Bytes)} (h : SampleFits xs) (hl : 8 + (qtWire xs).length < 4294967296)
    {k : Key α} {hd : Hdr} {rest r : Bytes} (hk : parseAtom (key C).parse (qtWire xs ++ rest) = .ok (k, hd, r))
    (hz : (qtWire xs).length < hd.size) (hz' : 8 + hd.size < 4294967296) :
    ∃ hd, parseAtom (boxes C).parse (box (fcc 'k' 'e' 'y' 's') (qtWire xs) ++ rest) = .ok (.keys [], hd, rest) := by
  have hlx : xs.length < 4294967296 := by
    have : xs.length ≤ (sampleWire xs).length := sampleWire_length xs
    simp only [qtWire, List.length_append, be_length] at hl
    unfold sampleWire at this
    omega
  have hp : (boxes C).parse ⟨8 + (qtWire xs).length, fcc 'k' 'e' 'y' 's', [], 0, 8⟩ ⟨qtWire xs ++ rest, 8⟩ =
      .ok (.keys [], ⟨rest, 8 + (qtWire xs).length⟩) := by
    have e : ∀ hd : Hdr, hd.type = fcc 'k' 'e' 'y' 's' → (boxes C).parse hd = P.as .keys ((table C).parse hd) :=
      fun hd h => if_pos h
    rw [e _ rfl]
    unfold P.as
    rw [P.bind_apply]
    let p : P (List (Key α)) := fun s => tableLoop C (s.rest.length + 1) (8 + (qtWire xs).length) [] s
    have hpe : p ⟨qtWire xs ++ rest, 8⟩ = .ok ([], ⟨rest, 8 + (qtWire xs).length⟩) := by
      have h8 : 8 ≤ (qtWire xs).length := by simp only [qtWire, List.length_append, be_length]; omega
      show tableLoop C ((qtWire xs ++ rest).length + 1) _ _ _ = _
      obtain ⟨n, hn⟩ : ∃ n, (qtWire xs ++ rest).length + 1 = n + 1 + 1 :=
        ⟨(qtWire xs ++ rest).length - 1, by simp only [List.length_append]; omega⟩
      rw [hn]
      simp only [tableLoop]
      rw [if_pos (by omega), hk]
      simp only
      rw [Nat.mod_eq_of_lt (by omega), if_pos (by omega), parses_quicktime h hlx rest 8]
      simp only
      rw [if_neg (by omega)]
    have ht : (table C).parse ⟨8 + (qtWire xs).length, fcc 'k' 'e' 'y' 's', [], 0, 8⟩ ⟨qtWire xs ++ rest, 8⟩ =
        .ok ([], ⟨rest, 8 + (qtWire xs).length⟩) := by
      show (p >>= _) _ = _
      rw [P.bind_apply, hpe]
      show (if 8 + (qtWire xs).length ≠ 8 + (qtWire xs).length then P.fail .badData else pure _ : P _) _ = _
      rw [if_neg (by simp)]
      rfl
    rw [ht]
    rfl
  obtain ⟨hd', _, _, h3⟩ := parseAtom_pad (body := (boxes C).parse) (pad := []) (r := rest) (payload := qtWire xs)
    (type := fcc 'k' 'e' 'y' 's') (v := .keys []) (m := 8 + (qtWire xs).length) (by rw [List.append_nil]; exact hp)
    (by rw [List.append_nil]; exact hl) (by unfold GoodType; decide)
  rw [List.append_nil] at h3
  exact ⟨hd', h3⟩

/-! ## Samples -/

/-- The reader gives the last box of the key in the sample, and what it had if there is none; less than four bytes at the
end are ignored. -/
theorem c73_demux {key : Nat} {xs : List (Nat × Bytes)} (h : SampleFits xs) {tail : Bytes} (ht : tail.length < 4)
    (out : Option Bytes) : demux key (sampleWire xs ++ tail) out = .ok ((lastOf key xs).or out) := by
  obtain ⟨n, hn, e⟩ := demux_sample h tail out
  rw [e]
  obtain ⟨n, rfl⟩ : ∃ m, n = m + 1 := ⟨n - 1, by omega⟩
  match tail, ht with
  | [], _ | [_], _ | [_, _], _ | [_, _, _], _ => rfl

/-- One box of the key: the reader gives what is in it. -/
theorem c73_demux_one {key : Nat} {a b : List (Nat × Bytes)} {d : Bytes} (h : SampleFits (a ++ (key, d) :: b))
    (hb : ∀ x ∈ b, x.1 ≠ key) (out : Option Bytes) :
    demux key (sampleWire (a ++ (key, d) :: b)) out = .ok (some d) := by
  have := c73_demux (key := key) h (tail := []) (by simp) out
  rw [List.append_nil] at this
  rw [this]
  have hf : b.filter (fun x => decide (x.1 = key)) = [] := by
    rw [List.filter_eq_nil_iff]
    intro x hx
    simpa using hb x hx
  unfold lastOf
  rw [List.filter_append, List.filter_cons, if_pos (by simp), hf]
  simp

/-- The key is not in the sample. -/
theorem c73_demux_none {key : Nat} {xs : List (Nat × Bytes)} (h : SampleFits xs) (hn : ∀ x ∈ xs, x.1 ≠ key)
    (out : Option Bytes) : demux key (sampleWire xs) out = .ok out := by
  have := c73_demux (key := key) h (tail := []) (by simp) out
  rw [List.append_nil] at this
  rw [this]
  have hf : xs.filter (fun x => decide (x.1 = key)) = [] := by
    rw [List.filter_eq_nil_iff]
    intro x hx
    simpa using hn x hx
  unfold lastOf
  rw [hf]
  rfl

/-- Two boxes of one key: the first is lost. -/
theorem c73_demux_lost {key : Nat} {d e : Bytes} (h : SampleFits [(key, d), (key, e)]) :
    demux key (sampleWire [(key, d), (key, e)]) none = .ok (some e) :=
  c73_demux_one (a := [(key, d)]) (b := []) h (by simp) none

/-- A length of 0 ends the sample. -/
theorem c73_demux_zero {key : Nat} {xs : List (Nat × Bytes)} (h : SampleFits xs) (tail : Bytes)
    (out : Option Bytes) : demux key (sampleWire xs ++ (be 4 0 ++ tail)) out = .ok ((lastOf key xs).or out) := by
  obtain ⟨n, hn, e⟩ := demux_sample h (be 4 0 ++ tail) out
  rw [e]
  obtain ⟨n, rfl⟩ : ∃ m, n = m + 1 := ⟨n - 1, by omega⟩
  rw [be4]
  simp only [List.cons_append, List.nil_append, demuxLoop, ofNat_toNat_mod]
  rw [if_pos (by decide)]

/-- Four to seven bytes at the end: the type is read past the end of the sample. -/
theorem c73_demux_torn {key : Nat} {xs : List (Nat × Bytes)} (h : SampleFits xs) {m : Nat} (h0 : 0 < m) (hm : m < 4294967296)
    {tail : Bytes} (ht : tail.length < 4) (out : Option Bytes) : demux key (sampleWire xs ++ (be 4 m ++ tail)) out = .ub := by
  obtain ⟨n, hn, e⟩ := demux_sample h (be 4 m ++ tail) out
  rw [e]
  obtain ⟨n, rfl⟩ : ∃ m, n = m + 1 := ⟨n - 1, by omega⟩
  rw [be4]
  simp only [List.cons_append, List.nil_append, demuxLoop, ofNat_toNat_mod, split4 hm]
  rw [if_neg (by omega)]
  match tail, ht with
  | [], _ | [_], _ | [_, _], _ | [_, _, _], _ => rfl

/-- A box of the key whose length goes past the end, or is less than that of its header: as much as it says is copied. -/
theorem c73_demux_over {key : Nat} (hk : key < 4294967296) {xs : List (Nat × Bytes)} (h : SampleFits xs) {m : Nat}
    (h0 : 0 < m) (hm : m < 4294967296) {body : Bytes} (hb : body.length < 4294967289) (ho : m < 8 ∨ 8 + body.length < m)
    (out : Option Bytes) : demux key (sampleWire xs ++ ((be 4 m ++ be 4 key) ++ body)) out = .ub := by
  obtain ⟨n, hn, e⟩ := demux_sample h ((be 4 m ++ be 4 key) ++ body) out
  rw [e]
  obtain ⟨n, rfl⟩ : ∃ m, n = m + 1 := ⟨n - 1, by omega⟩
  rw [be4, be4]
  simp only [List.cons_append, List.nil_append, demuxLoop, ofNat_toNat_mod, split4 hm, split4 hk]
  rw [if_neg (by omega), if_pos trivial, if_neg]
  omega

/-- Another box whose length goes past the end: it ends the sample. -/
theorem c73_demux_over_other {key t : Nat} (ht : t < 4294967296) (hne : t ≠ key) {xs : List (Nat × Bytes)} (h : SampleFits xs)
    {m : Nat} (hm : m < 4294967296) {body : Bytes} (ho : 8 + body.length ≤ m)
    (out : Option Bytes) : demux key (sampleWire xs ++ ((be 4 m ++ be 4 t) ++ body)) out = .ok ((lastOf key xs).or out) := by
  obtain ⟨n, hn, e⟩ := demux_sample h ((be 4 m ++ be 4 t) ++ body) out
  rw [e]
  obtain ⟨n, rfl⟩ : ∃ m, n = m + 1 + 1 := ⟨n - 2, by simp only [List.length_append, be_length] at hn; omega⟩
  rw [be4, be4]
  simp only [List.cons_append, List.nil_append]
  rw [demuxLoop]
  simp only [ofNat_toNat_mod, split4 hm, split4 ht]
  rw [if_neg (by omega), if_neg hne, List.drop_eq_nil_of_le (by simp only [List.length_cons]; omega)]
  rfl

/-! ## Cases -/

namespace C73

/-- Position in the namespace `abcd`, with a locale and a setup; the number is wished. -/
def r1 : Request := ⟨1, fcc 'a' 'b' 'c' 'd', some [112, 111, 115], some [101, 110], some [1, 2, 3]⟩
/-- The same number is wished: the next is given. -/
def r2 : Request := ⟨1, fcc 'a' 'b' 'c' 'd', some [114, 111, 116], none, none⟩
/-- A four-character key, without a value. -/
def r3 : Request := ⟨fcc 't' 'e' 's' 't', fcc 'm' 'e' '4' 'c', none, none, some [9]⟩
/-- One with its value. -/
def r4 : Request := ⟨fcc 't' 'e' 's' 'u', fcc 'u' 'i' 's' 'o', some (be 4 (fcc 't' 'e' 's' 'u')), some [102, 114], none⟩

def rows : List Row := [r1.row 1, r2.row 2, r3.row (fcc 't' 'e' 's' 't'), r4.row (fcc 't' 'e' 's' 'u')]

theorem free1 : Free [] 1 1 := ⟨by decide, by decide, by decide, fun m _ _ => by omega⟩
theorem free2 : Free [1] 1 2 := ⟨by decide, by decide, by decide, fun m _ _ => by simp; omega⟩
theorem free3 : Free [1, 2] (fcc 't' 'e' 's' 't') (fcc 't' 'e' 's' 't') :=
  ⟨by decide, by decide, by decide, fun m _ _ => by omega⟩
theorem free4 : Free [1, 2, fcc 't' 'e' 's' 't'] (fcc 't' 'e' 's' 'u') (fcc 't' 'e' 's' 'u') :=
  ⟨by decide, by decide, by decide, fun m _ _ => by omega⟩

theorem placed : Placed [r1, r2, r3, r4] rows :=
  .snoc (rs := [r1, r2, r3]) (xs := [r1.row 1, r2.row 2, r3.row (fcc 't' 'e' 's' 't')])
    (.snoc (rs := [r1, r2]) (xs := [r1.row 1, r2.row 2]) (.snoc (rs := [r1]) (xs := [r1.row 1])
      (.snoc (rs := []) (xs := []) .nil free1) free2) free3) free4

theorem fine : ∀ r ∈ [r1, r2, r3, r4], r.Fine := by
  intro r hr
  simp only [List.mem_cons, List.not_mem_nil, or_false] at hr
  rcases hr with rfl | rfl | rfl | rfl
  · exact ⟨fun h => absurd h (by unfold FourCC; decide), fun _ => ⟨_, rfl, by decide⟩, by rintro d ⟨rfl⟩; exact ⟨by decide, by decide⟩⟩
  · exact ⟨fun h => absurd h (by unfold FourCC; decide), fun _ => ⟨_, rfl, by decide⟩, fun d hd => by cases hd⟩
  · exact ⟨fun _ => rfl, fun h => absurd (show FourCC (fcc 'm' 'e' '4' 'c') from .inl rfl) h, by rintro d ⟨rfl⟩; exact ⟨by decide, by decide⟩⟩
  · exact ⟨fun _ => rfl, fun h => absurd (show FourCC (fcc 'u' 'i' 's' 'o') from .inr rfl) h, fun d hd => by cases hd⟩

theorem seven : ∀ r ∈ [r1, r2, r3, r4], FourCC r.ns → r.value = none ∨ Seven r.desired := by
  intro r hr
  simp only [List.mem_cons, List.not_mem_nil, or_false] at hr
  rcases hr with rfl | rfl | rfl | rfl
  · exact fun h => absurd h (by unfold FourCC; decide)
  · exact fun h => absurd h (by unfold FourCC; decide)
  · exact fun _ => .inl rfl
  · exact fun _ => .inr (by decide)

theorem texts : ∀ r ∈ [r1, r2, r3, r4], ∀ t ∈ r.locale, t ≠ [] ∧ ∀ b ∈ t, b ≠ 0 := by
  intro r hr
  simp only [List.mem_cons, List.not_mem_nil, or_false] at hr
  rcases hr with rfl | rfl | rfl | rfl
  · rintro t ⟨rfl⟩; exact ⟨by decide, by decide⟩
  · intro t ht; cases ht
  · intro t ht; cases ht
  · rintro t ⟨rfl⟩; exact ⟨by decide, by decide⟩

theorem numbers : ∀ x ∈ rows, x.id ≠ 0 ∧ x.id ≠ fcc 'u' 'u' 'i' 'd' := by decide

example := c73_metadata_partial (C := leafs) placed fine seven (by decide) texts numbers (dref := 1) (by decide)
  (by decide +kernel)
example := c73_placed [r1, r2, r3, r4] (by decide)
example := c73_session (α := Tree.Tree) placed fine seven 1
example := c73_add (α := Tree.Tree) (fine r2 (by simp)) (seven r2 (by simp)) (dref := 1) (xs := [r1.row 1]) free2
/-- The last two numbers are used. -/
example := c73_add_full (α := Tree.Tree) (r := ⟨4294967293, fcc 'a' 'b' 'c' 'd', some [1], none, none⟩)
  ⟨fun h => absurd h (by unfold FourCC; decide), fun _ => ⟨_, rfl, by decide⟩, fun d hd => by cases hd⟩
  (fun h => absurd h (by unfold FourCC; decide)) (dref := 1)
  (xs := [⟨4294967294, 5, [1], none, none⟩, ⟨4294967293, 5, [1], none, none⟩]) (by decide)
  (by intro m h1 h2; simp only at h1; simp only [List.map_cons, List.map_nil, List.mem_cons, List.not_mem_nil, or_false]; omega)

theorem fits : ∀ x ∈ rows, x.Fits := by
  intro x hx
  simp only [rows, List.mem_cons, List.not_mem_nil, or_false] at hx
  rcases hx with rfl | rfl | rfl | rfl
  · exact ⟨by unfold GoodType; decide, by decide, fun h => absurd h (by unfold FourCC; decide), texts r1 (by simp)⟩
  · exact ⟨by unfold GoodType; decide, by decide, fun h => absurd h (by unfold FourCC; decide), texts r2 (by simp)⟩
  · exact ⟨by unfold GoodType; decide, by decide, fun _ => rfl, texts r3 (by simp)⟩
  · exact ⟨by unfold GoodType; decide, by decide, fun _ => rfl, texts r4 (by simp)⟩

example := c73_config (C := leafs) (dref := 1) (by decide) fits (by decide) (by decide +kernel) 2
/-- The empty table of a new entry. -/
example := c73_entry (C := leafs) (xs := []) (dref := 1) (by decide) (by simp) (by simp) (by decide)

/-- A key with a declaration, a box of another class, and a setup. -/
def kd : Kid (Sub Tree.Tree) :=
  ⟨fcc 'k' 'e' 'y' 'd', .keyd ⟨7, [1, 2]⟩, box (fcc 'k' 'e' 'y' 'd') (be 4 7 ++ [1, 2])⟩
def su : Kid (Sub Tree.Tree) := ⟨fcc 's' 'e' 't' 'u', .setu [5], box (fcc 's' 'e' 't' 'u') [5]⟩
def bt : Kid (Sub Tree.Tree) := ⟨btrt.type, .other btrt.val, btrt.bytes⟩

theorem kd_survives : Survives (sub leafs) kd.type kd.val kd.bytes :=
  c73_declaration (x := ⟨7, [1, 2]⟩) (by decide) (fun h => absurd h (by unfold FourCC; decide)) (by decide)
theorem su_survives : Survives (sub leafs) su.type su.val su.bytes := c73_setup (by decide)
theorem bt_survives : Survives (sub leafs) bt.type bt.val bt.bytes :=
  c73_other (family btrt (by simp)).1 ⟨by decide, by decide, by decide⟩

theorem kids : Family (sub leafs) [kd, bt, su] := by
  intro k hk
  simp only [List.mem_cons, List.not_mem_nil, or_false] at hk
  rcases hk with rfl | rfl | rfl
  · exact ⟨kd_survives, by decide⟩
  · exact ⟨bt_survives, by decide⟩
  · exact ⟨su_survives, by decide⟩

example := c73_key kids (by decide) (id := 3) (by unfold GoodType; decide) (by decide +kernel)
/-- Two setups. -/
example := c73_key_twice (C := leafs) (ks := [su, kd, su]) (by
    intro k hk
    simp only [List.mem_cons, List.not_mem_nil, or_false] at hk
    rcases hk with rfl | rfl | rfl
    · exact su_survives.read
    · exact kd_survives.read
    · exact su_survives.read)
  (by decide) (id := 3) (by unfold GoodType; decide) (by decide +kernel) []

/-- The numbers 3 and `free`. -/
def k3 : Kid (Key Tree.Tree) := ⟨3, ⟨3, vals [kd, bt, su]⟩, box 3 (wire [kd, bt, su])⟩
def kf : Kid (Key Tree.Tree) := ⟨fcc 'f' 'r' 'e' 'e', ⟨fcc 'f' 'r' 'e' 'e', vals [su]⟩, box (fcc 'f' 'r' 'e' 'e') (wire [su])⟩

theorem k3_survives : Survives (key leafs) k3.type k3.val k3.bytes :=
  c73_key kids (by decide) (by unfold GoodType; decide) (by decide +kernel)
theorem kf_survives : Survives (key leafs) kf.type kf.val kf.bytes :=
  c73_key (ks := [su]) (by
    intro k hk
    simp only [List.mem_cons, List.not_mem_nil, or_false] at hk
    subst hk
    exact ⟨su_survives, by decide⟩) (by decide) (by unfold GoodType; decide) (by decide +kernel)

example := c73_table (C := leafs) (ks := [k3, kf]) (by
    intro k hk
    simp only [List.mem_cons, List.not_mem_nil, or_false] at hk
    rcases hk with rfl | rfl
    · exact k3_survives
    · exact kf_survives)
  (by decide) (by decide +kernel)
example := c73_table_twice (C := leafs) (ks := [k3, kf, k3]) (by
    intro k hk
    simp only [List.mem_cons, List.not_mem_nil, or_false] at hk
    rcases hk with rfl | rfl | rfl
    · exact k3_survives.read
    · exact kf_survives.read
    · exact k3_survives.read)
  (by decide) (by decide +kernel) []
/-- The key `free` has no declaration. -/
example := c73_no_declaration (C := leafs) (ks := [k3, kf]) (by
    intro k hk
    simp only [List.mem_cons, List.not_mem_nil, or_false] at hk
    rcases hk with rfl | rfl
    · exact k3_survives.read
    · exact kf_survives.read)
  (by decide) (dref := 1) (by decide) (by decide +kernel) (i := 1) rfl rfl

example := c73_high_refused (α := Tree.Tree) (r := ⟨fcc 'a' 'b' 'c' 'd' + 128, fcc 'm' 'e' '4' 'c', some (be 4 (fcc 'a' 'b' 'c' 'd' + 128)), none, none⟩)
  (.inl rfl) rfl (by decide) (by decide) (dref := 1) (xs := [])
example := c73_high_taken (α := Tree.Tree) (r := ⟨0xFFFFFF80, fcc 'm' 'e' '4' 'c', some [1, 2, 3, 128], none, none⟩)
  (.inl rfl) (a := 1) (b := 2) (c := 3) (d := 128) (by decide) rfl rfl rfl (dref := 1) (xs := []) (n := 0xFFFFFF80)
  ⟨by decide, by decide, by decide, fun m h1 h2 => by simp only at h1; omega⟩
example := c73_empty_locale (C := leafs) (a := [r1.row 1]) (b := [r2.row 2]) (x := ⟨3, 7, [1], some [], some [1]⟩) (dref := 1)
  (fun r hr => fits r (by simp only [List.mem_singleton] at hr; subst hr; simp [rows]))
  (fun r hr => fits r (by simp only [List.mem_singleton] at hr; subst hr; simp [rows]))
  (fun h => absurd h (by unfold FourCC; decide)) (by decide) (by decide) rfl (by decide)
example := c73_zero (C := leafs) (a := [r1.row 1]) (b := []) (x := ⟨0, 7, [1], none, none⟩) (dref := 1)
  (fun r hr => fits r (by simp only [List.mem_singleton] at hr; subst hr; simp [rows])) (by decide) rfl (by decide)
example := c73_uuid (C := leafs) (x := ⟨fcc 'u' 'u' 'i' 'd', fcc 'm' 'e' '4' 'c', be 4 (fcc 'u' 'u' 'i' 'd'), none, none⟩) rfl rfl
  (by decide) rfl rfl (dref := 1) (by decide)
/-- One key of QuickTime, of the namespace `btrt` to have it of a class of these cases. -/
example := c73_quicktime (C := leafs) (ks := [bt]) (by
    intro k hk
    simp only [List.mem_cons, List.not_mem_nil, or_false] at hk
    subst hk
    exact bt_survives.read)
  (by decide) rfl (n := 1) (dref := 1) (by unfold GoodType; decide) (by decide) (by decide +kernel)

example := c73_locale_reads (C := leafs) (b := [0]) (by decide)

/-- A table with one key, between two other boxes. -/
example := c73_table_among (C := leafs) (a := [esds]) (b := [btrt]) (fun k hk => family.readable k (by simp_all))
  (fun k hk => family.readable k (by simp_all)) (by decide) (by decide)
  (ks := [⟨7, ⟨7, vals (stay [bt])⟩, box 7 (wire [bt])⟩])
  (by
    intro k hk
    rw [List.mem_singleton] at hk
    subst hk
    refine key_reads ?_ (by decide) (by unfold GoodType; decide) (by decide +kernel)
    intro k hk
    rw [List.mem_singleton] at hk
    subst hk
    exact bt_survives.read)
  (by decide) (reserved := six) rfl (dref := 1) (by decide) (by decide +kernel)

example := c73_no_table (C := leafs) (a := [esds, btrt]) family.readable (by decide) (reserved := six) rfl (dref := 1)
  (by decide) (by decide +kernel) 3

/-- One key of QuickTime, and a box after the table. -/
example := c73_quicktime_more (C := leafs) (xs := [(btrt.type, btrt.bytes.drop 8)]) (by unfold SampleFits; decide +kernel) (by decide +kernel)
  (rest := btrt.bytes) (k := ⟨1, vals (stay [bt, bt])⟩) (hd := ⟨8 + (wire [bt, bt]).length, 1, [], 0, 8⟩) (r := [])
  (by
    have e : qtWire [(btrt.type, btrt.bytes.drop 8)] ++ btrt.bytes = be 4 0 ++ (be 4 1 ++ wire [bt, bt]) := by decide +kernel
    rw [e]
    refine key_zero ?_ (by decide) (by unfold GoodType; decide) (by decide +kernel)
    intro k hk
    simp only [List.mem_cons, List.not_mem_nil, or_false, or_self] at hk
    subst hk
    exact bt_survives.read)
  (by decide +kernel) (by decide +kernel)

def q : List (Nat × Bytes) := [(5, [1, 2, 3]), (7, [9]), (5, [4]), (6, [])]
example := c73_demux (key := 5) (xs := q) (by unfold SampleFits; decide) (tail := [0, 0]) (by decide) none
example : lastOf 5 q = some [4] := by decide
example := c73_demux_one (key := 7) (a := [(5, [1, 2, 3])]) (b := [(5, [4])]) (d := [9]) (by unfold SampleFits; decide) (by decide) none
example := c73_demux_torn (key := 7) (xs := q) (by unfold SampleFits; decide) (m := 9) (by decide) (by decide) (tail := [0]) (by decide) none
example := c73_demux_over (key := 7) (by decide) (xs := q) (by unfold SampleFits; decide) (m := 100) (by decide) (by decide)
  (body := [0]) (by decide) (.inr (by decide)) none

end C73

end Verif.Meb
