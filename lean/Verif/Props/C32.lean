import Verif.Lemmas.Tree

/-!
# C32: a parsed container accounts for every byte exactly once
-/

namespace Verif.Tree

/-- Parsing succeeds exactly on the boxes that fit, and gives the tree without the free space inside
containers; what remains of the stream is what follows the box. Partial: for streams below 4 GB, see
`c32_large_child_fails`. -/
theorem c32_parse_iff_partial (inp rest : Bytes) (t : Tree) (hl : inp.length < 4294967296) :
    (∃ h, parse inp = .ok (t, h, rest)) ↔
      ∃ l, Fit rest.isEmpty l ∧ kept l = t ∧ inp = wire l ++ rest := by
  constructor
  · rintro ⟨h, hp⟩
    obtain ⟨l, h1, h2, h3, _⟩ := (reads inp.length).1 _ _ _ _ hl hp
    exact ⟨l, h1, h2, h3⟩
  · rintro ⟨l, h1, rfl, rfl⟩
    obtain ⟨h, hp, _⟩ := read_box l (wire l ++ rest).length rest
      (by simp only [List.length_append]; omega) (by simp only [List.length_append] at hl; omega) h1
    exact ⟨h, hp⟩

/-- A container that was read: the members lie in its payload one after another, in the order of the
list, free space between them is dropped, the sizes of all of them with the header add up to the size
of the container, and exactly that many bytes were consumed. Partial: for streams below 4 GB. -/
theorem c32_container_partial (inp rest : Bytes) (type : Nat) (cs : List Tree) (h : Hdr)
    (hl : inp.length < 4294967296) (hp : parse inp = .ok (.node type cs, h, rest)) :
    ∃ (sizeField : Nat) (ls : List Laid), Fits rest.isEmpty ls ∧
      inp = be 4 sizeField ++ be 4 type ++ ls.flatMap wire ++ rest ∧
      (sizeField = h.size ∨ sizeField = 0 ∧ rest = []) ∧
      cs = (ls.filter fun l => ¬ FreeSpace l.type).map kept ∧
      h.size = 8 + (ls.map fun l => (wire l).length).sum ∧
      inp.length = h.size + rest.length := by
  obtain ⟨l, h1, h2, h3, h4, _⟩ := (reads inp.length).1 _ _ _ _ hl hp
  have hw : ∀ ls : List Laid, wires ls = ls.flatMap wire := by
    intro ls; induction ls with
    | nil => rfl
    | cons l ls ih => simp [wires, ih]
  have hk : ∀ ls : List Laid, keptAll ls = (ls.filter fun l => ¬ FreeSpace l.type).map kept := by
    intro ls; induction ls with
    | nil => rfl
    | cons l ls ih => by_cases hf : FreeSpace l.type <;> simp [keptAll, hf, ih]
  match l, h1, h2, h3, h4 with
  | .leaf .., _, h2, _, _ => simp [kept] at h2
  | .node zero type' ls, h1, h2, h3, h4 =>
    obtain ⟨_, _, hz, hfs⟩ := h1
    simp only [kept, Tree.node.injEq] at h2
    obtain ⟨rfl, rfl⟩ := h2
    simp only [wire, List.length_append, be_length, hw, List.length_flatMap] at h3 h4
    refine ⟨_, ls, hfs, h3, ?_, hk ls, h4, ?_⟩
    · cases zero with
      | true => exact .inr ⟨rfl, by simpa using hz rfl⟩
      | false => left; simp [h4]
    · rw [h3]; simp only [List.length_append, be_length, List.length_flatMap]; rw [h4]

/-! ## The parser never leaves the defined behaviour -/

theorem parseHeader_not_ub (inp : Bytes) : parseHeader inp ≠ .ub := by
  have key : ∀ {α β : Type} {x : Res α} {f : α → Res β}, x ≠ .ub → (∀ a, f a ≠ .ub) → (x >>= f) ≠ .ub := by
    intro α β x f hx hf
    cases x with
    | ok a => exact hf a
    | err e => intro h; cases h
    | ub => exact absurd rfl hx
  unfold parseHeader
  refine key (rd32_not_ub _) fun a => ?_
  dsimp only
  generalize (if a.1 = 0 then (if a.2.length + 4 < 4294967296 then a.2.length + 4 else 1) else a.1) = size
  by_cases hc : size ≠ 1 ∧ (size + 4294967292) % 4294967296 > a.2.length
  · rw [if_pos hc]; simp
  rw [if_neg hc]
  refine key (rd32_not_ub _) fun b => ?_
  refine key ?_ fun c => ?_
  · split
    · split <;> simp
    · simp
  refine key ?_ fun d => ?_
  · split
    · refine key (rd32_not_ub _) fun x => ?_
      refine key (rd32_not_ub _) fun y => ?_
      simp
    · simp
  split <;> simp

theorem parseHeader_short {inp r : Bytes} {h : Hdr} (hp : parseHeader inp = .ok (h, r)) :
    r.length + 8 ≤ inp.length := by
  unfold parseHeader at hp
  obtain ⟨⟨size0, r1⟩, e1, hp2⟩ := Res.bind_eq_ok.1 hp
  clear hp; have hp := hp2; clear hp2
  obtain ⟨rfl, hs0⟩ := rd32_inv e1
  dsimp only at hp
  generalize (if size0 = 0 then (if r1.length + 4 < 4294967296 then r1.length + 4 else 1) else size0) = size at hp
  by_cases hc : size ≠ 1 ∧ (size + 4294967292) % 4294967296 > r1.length
  · rw [if_pos hc] at hp; cases hp
  rw [if_neg hc] at hp
  obtain ⟨⟨type, r2⟩, e2, hp2⟩ := Res.bind_eq_ok.1 hp
  clear hp; have hp := hp2; clear hp2
  obtain ⟨rfl, ht⟩ := rd32_inv e2
  obtain ⟨⟨uuid, r3, n⟩, e3, hp2⟩ := Res.bind_eq_ok.1 hp
  clear hp; have hp := hp2; clear hp2
  have h3 : r3.length ≤ r2.length := by
    dsimp only at e3
    split at e3
    · split at e3
      · cases e3
      · simp only [Res.ok.injEq, Prod.mk.injEq] at e3
        rw [← e3.2.1, List.length_drop]; omega
    · simp only [Res.ok.injEq, Prod.mk.injEq] at e3
      rw [← e3.2.1]; exact Nat.le_refl _
  obtain ⟨⟨s64, r4, n4⟩, e4, hp2⟩ := Res.bind_eq_ok.1 hp
  clear hp; have hp := hp2; clear hp2
  dsimp only at hp e4
  have h4 : r4.length ≤ r3.length := by
    by_cases h1 : size = 1
    · rw [if_pos h1] at e4
      obtain ⟨⟨hi, r5⟩, e5, e7⟩ := Res.bind_eq_ok.1 e4
      clear e4
      obtain ⟨rfl, _⟩ := rd32_inv e5
      obtain ⟨⟨lo, r6⟩, e6, e4⟩ := Res.bind_eq_ok.1 e7
      clear e7
      obtain ⟨rfl, _⟩ := rd32_inv e6
      simp only [Res.ok.injEq, Prod.mk.injEq] at e4
      rw [← e4.2.1]; simp; omega
    · rw [if_neg h1] at e4
      simp only [Res.ok.injEq, Prod.mk.injEq] at e4
      rw [← e4.2.1]; exact Nat.le_refl _
  by_cases hn : size ≠ 1 ∧ size < n4
  · rw [if_pos hn] at hp; cases hp
  rw [if_neg hn] at hp
  simp only [Res.ok.injEq, Prod.mk.injEq] at hp
  rw [← hp.2]
  simp; omega

theorem total (n : Nat) :
    (∀ inp : Bytes, inp.length ≤ n + 6 → parseAtom (body n) inp ≠ .ub ∧
      ∀ t h r, parseAtom (body n) inp = .ok (t, h, r) → r.length + 8 ≤ inp.length) ∧
    (∀ size gs e old (s : PS), s.rest.length + 1 ≤ n → children n size gs e old s ≠ .ub ∧
      ∀ cs s', children n size gs e old s = .ok (cs, s') → s'.rest.length ≤ s.rest.length) := by
  induction n with
  | zero =>
    constructor
    · intro inp hn
      unfold parseAtom
      cases hh : parseHeader inp with
      | err e => simp
      | ub => exact absurd hh (parseHeader_not_ub _)
      | ok x => have := parseHeader_short hh; omega
    · intro _ _ _ _ s hn; omega
  | succ n ih =>
    constructor
    · intro inp hn
      unfold parseAtom
      cases hh : parseHeader inp with
      | err e => simp
      | ub => exact absurd hh (parseHeader_not_ub _)
      | ok x =>
        obtain ⟨h, r⟩ := x
        have hr := parseHeader_short hh
        dsimp only at hr ⊢
        have hb : body (n + 1) h ⟨r, h.hlen⟩ ≠ .ub ∧
            ∀ t s', body (n + 1) h ⟨r, h.hlen⟩ = .ok (t, s') → s'.rest.length ≤ r.length := by
          unfold body
          cases groups h.type with
          | none =>
            simp only [P.bind_apply, P.bytesRead, getBytes]
            by_cases hc : r.length < (h.size + (4294967296 - h.hlen)) % 4294967296
            · simp only [if_pos hc]; simp
            · simp only [if_neg hc, P.pure_apply]
              refine ⟨by simp, ?_⟩
              intro t s' he
              simp only [Res.ok.injEq, Prod.mk.injEq] at he
              rw [← he.2]; simp
          | some x =>
            obtain ⟨gs, e⟩ := x
            have := ih.2 h.size gs e [] ⟨r, h.hlen⟩ (by dsimp only; omega)
            simp only [P.bind_apply]
            cases hc : children n h.size gs e [] ⟨r, h.hlen⟩ with
            | err e => simp
            | ub => exact absurd hc this.1
            | ok y =>
              have h2 := this.2 _ _ hc
              simp only [P.bytesRead]
              by_cases hd : y.2.read ≠ h.size
              · rw [if_pos hd]; simp [P.fail]
              · rw [if_neg hd]
                refine ⟨by simp [P.pure_apply], ?_⟩
                intro t s' he
                simp only [P.pure_apply, Res.ok.injEq, Prod.mk.injEq] at he
                rw [← he.2]; exact h2
        cases hc : body (n + 1) h ⟨r, h.hlen⟩ with
        | err e => simp
        | ub => exact absurd hc hb.1
        | ok y =>
          have h2 := hb.2 _ _ hc
          refine ⟨by simp, ?_⟩
          intro t h' r' he
          simp only [Res.ok.injEq, Prod.mk.injEq] at he
          rw [← he.2.2, List.length_drop]; omega
    · intro size gs e old s hn
      unfold children
      by_cases hc : s.read < size
      · simp only [if_pos hc]
        have h1 := ih.1 s.rest (by omega)
        cases hb : parseAtom (body n) s.rest with
        | err e => simp
        | ub => exact absurd hb h1.1
        | ok x =>
          obtain ⟨c, h, r⟩ := x
          have hl := h1.2 _ _ _ hb
          simp only
          split
          · have := ih.2 size gs e old ⟨r, (s.read + h.size) % 4294967296⟩ (by dsimp only; omega)
            exact ⟨this.1, fun cs s' hh => by have := this.2 cs s' hh; dsimp only at this; omega⟩
          · split
            · have := ih.2 size gs e (old ++ [c]) ⟨r, (s.read + h.size) % 4294967296⟩ (by dsimp only; omega)
              exact ⟨this.1, fun cs s' hh => by have := this.2 cs s' hh; dsimp only at this; omega⟩
            · simp
      · simp only [if_neg hc]
        refine ⟨by simp, ?_⟩
        intro cs s' he
        simp only [Res.ok.injEq, Prod.mk.injEq] at he
        rw [← he.2]; exact Nat.le_refl _

/-- On every stream the parser ends with a box or with an error, and a box takes at least the eight bytes
of its header. -/
theorem c32_total (inp : Bytes) :
    (∃ t h rest, parse inp = .ok (t, h, rest) ∧ rest.length + 8 ≤ inp.length) ∨ (∃ e, parse inp = .err e) := by
  have := (total inp.length).1 inp (by omega)
  unfold parse
  cases h : parseAtom (body inp.length) inp with
  | ok r => exact .inl ⟨_, _, _, rfl, this.2 _ _ _ h⟩
  | err e => exact .inr ⟨e, rfl⟩
  | ub => exact absurd h this.1

/-! ## Boxes with a 64-bit size -/

/-- A child with a 64-bit size counts as one byte. A container of 9 bytes is accepted although its child
takes more than 4 GB: the property fails for streams of 4 GB and more. -/
theorem c32_large_child_fails (d : Bytes) (hd : d.length = 4294967281) :
    parse (be 4 9 ++ be 4 (fcc 's' 'c' 'h' 'i') ++ (be 4 1 ++ be 4 (fcc 'a' 'b' 'c' 'd') ++ be 4 0 ++ be 4 0 ++ d)) =
      .ok (.node (fcc 's' 'c' 'h' 'i') [.leaf (fcc 'a' 'b' 'c' 'd') [] d],
        ⟨9, fcc 's' 'c' 'h' 'i', [], 0, 8⟩, []) := by
  have hs : fcc 's' 'c' 'h' 'i' < 4294967296 := by decide
  have hs' : fcc 's' 'c' 'h' 'i' ≠ typeUuid := by decide
  have ha : fcc 'a' 'b' 'c' 'd' < 4294967296 := by decide
  have ha' : fcc 'a' 'b' 'c' 'd' ≠ typeUuid := by decide
  have hgs : groups (fcc 's' 'c' 'h' 'i') = some ([], .badData) := by decide +kernel
  have hga : groups (fcc 'a' 'b' 'c' 'd') = none := by decide +kernel
  have hfa : isFree (fcc 'a' 'b' 'c' 'd') = false := by decide +kernel
  generalize fcc 's' 'c' 'h' 'i' = schi at *
  generalize fcc 'a' 'b' 'c' 'd' = abcd at *
  unfold parse
  obtain ⟨n, hn⟩ : ∃ n, (be 4 9 ++ be 4 schi ++ (be 4 1 ++ be 4 abcd ++ be 4 0 ++ be 4 0 ++ d)).length = n + 3 :=
    ⟨(be 4 9 ++ be 4 schi ++ (be 4 1 ++ be 4 abcd ++ be 4 0 ++ be 4 0 ++ d)).length - 3, by
      simp only [List.length_append, be_length]; omega⟩
  rw [hn]
  clear hn
  -- the child
  have hh : parseHeader (be 4 1 ++ be 4 abcd ++ be 4 0 ++ be 4 0 ++ d) = .ok (⟨1, abcd, [], 0, 16⟩, d) := by
    unfold parseHeader
    simp only [List.append_assoc]
    rw [rd32_be, Res.ok_bind]
    simp only [Nat.reduceMod, Nat.one_ne_zero, if_false, ne_eq, not_true_eq_false, false_and]
    rw [rd32_be, Res.ok_bind]
    simp only [Nat.mod_eq_of_lt ha, ha', if_false, Res.ok_bind, if_true]
    rw [rd32_be, Res.ok_bind]
    simp only
    rw [rd32_be, Res.ok_bind]
    simp
  have hc : parseAtom (body (n + 1)) (be 4 1 ++ be 4 abcd ++ be 4 0 ++ be 4 0 ++ d) =
      .ok (.leaf abcd [] d, ⟨1, abcd, [], 0, 16⟩, []) := by
    unfold parseAtom
    rw [hh]
    simp only [body, hga, P.bind_apply, P.bytesRead, getBytes]
    rw [if_neg (by omega)]
    simp only [P.pure_apply]
    rw [List.take_of_length_le (by omega), List.drop_of_length_le (l := d) (by omega)]
    simp
  unfold parseAtom
  rw [parseHeader_small (by omega) (by omega) hs hs' _ (by simp only [List.length_append, be_length]; omega)]
  simp only [body, hgs, P.bind_apply]
  have hch : children (n + 2) 9 [] .badData [] ⟨be 4 1 ++ be 4 abcd ++ be 4 0 ++ be 4 0 ++ d, 8⟩ =
      .ok ([.leaf abcd [] d], ⟨[], 9⟩) := by
    unfold children
    simp only
    rw [if_pos (by omega), hc]
    simp only [hfa, Bool.false_eq_true, if_false, vacant, List.all_nil, if_true, List.nil_append]
    unfold children
    simp
  rw [hch]
  simp [P.bytesRead, P.pure_apply]

example : ∃ d : Bytes, d.length = 4294967281 := ⟨List.replicate 4294967281 0, List.length_replicate ..⟩

/-! ## Writing and reading again -/

mutual

theorem size_eq (t : Tree) (hs : Sound t) (hl : (wire (lay t)).length < 4294967296) :
    size t = (wire (lay t)).length := by
  match t, hs with
  | .leaf type uuid data, hs =>
    obtain ⟨_, _, _, hu⟩ := hs
    simp only [lay, wire, List.length_append, be_length] at hl ⊢
    unfold size
    split at hu
    · rename_i hty; rw [if_pos hty, Nat.mod_eq_of_lt (by omega)]; omega
    · rename_i hty; rw [if_neg hty, Nat.mod_eq_of_lt (by omega)]; omega
  | .node type cs, hs =>
    simp only [lay, wire, List.length_append, be_length] at hl ⊢
    unfold size
    rw [sizes_eq 8 cs hs.2.2 (by omega)]

theorem sizes_eq (n : Nat) (cs : List Tree) (hs : Sounds cs)
    (hl : n + (wires (lays cs)).length < 4294967296) : sizes n cs = n + (wires (lays cs)).length := by
  match cs, hs with
  | [], _ => simp [sizes, lays, wires]
  | c :: cs, hs =>
    simp only [lays, wires, List.length_append] at hl ⊢
    unfold sizes
    rw [size_eq c hs.1 (by omega), Nat.mod_eq_of_lt (by omega), sizes_eq _ cs hs.2 (by omega)]
    omega

end

mutual

theorem ser_eq (t : Tree) (hs : Sound t) (hl : (wire (lay t)).length < 4294967296) :
    runW (size t) (ser t) = .ok (wire (lay t)) := by
  have hsz := size_eq t hs hl
  match t, hs with
  | .leaf type uuid data, hs =>
    have h0 : type ≠ 0 := by have := hs.1; omega
    have hu := hs.2.2.2
    have e : (8 + uuid.length + data.length) = size (.leaf type uuid data) := by
      rw [hsz]; simp [lay, wire]; omega
    refine EmitsFull.runW (bs := wire (lay (.leaf type uuid data))) ?_ hsz.symm (by omega)
    unfold ser
    rw [if_neg h0]
    simp only [lay, wire, Bool.false_eq_true, if_false, e]
    rw [List.append_assoc (be 4 _ ++ be 4 _)]
    refine (emits_serBase _ _).then ?_
    by_cases hty : type = typeUuid
    · rw [if_pos hty]
      exact (emits_bytes uuid).then (emits_bytes data).thenAssert
    · rw [if_neg hty] at hu ⊢
      rw [List.length_eq_zero_iff.1 hu]
      exact emits_skip.then (emits_bytes data).thenAssert
  | .node type cs, hs =>
    have e : (8 + (wires (lays cs)).length) = size (.node type cs) := by
      rw [hsz]; simp [lay, wire]; omega
    have hl' : (wires (lays cs)).length < 4294967296 := by
      simp only [lay, wire, List.length_append] at hl; omega
    refine EmitsFull.runW (bs := wire (lay (.node type cs))) ?_ hsz.symm (by omega)
    unfold ser
    simp only [lay, wire, Bool.false_eq_true, if_false, e]
    exact (emits_serBase _ _).then (sers_eq cs hs.2.2 hl').thenAssert

theorem sers_eq (cs : List Tree) (hs : Sounds cs) (hl : (wires (lays cs)).length < 4294967296) :
    Emits (sers cs) (wires (lays cs)) := by
  match cs, hs with
  | [], _ => exact emits_skip
  | c :: cs, hs =>
    simp only [lays, wires, List.length_append] at hl
    unfold sers
    simp only [lays, wires]
    exact (emits_nested (ser_eq c hs.1 (by omega)) (size_eq c hs.1 (by omega)).symm).seq
      (sers_eq cs hs.2 (by omega))

end

theorem Once.sub {type : Nat} {a b : List Nat} (h : Once type b) (hab : a.Sublist b) : Once type a :=
  fun c hc ht g hg => Nat.le_trans (hab.filter _).length_le (h c hc ht g hg)

theorem lay_type (t : Tree) : (lay t).type = t.type := by
  cases t <;> simp [lay, Laid.type, Tree.type]

theorem kept_types (cs : List Tree) :
    ((keptAll (lays cs)).map Tree.type).Sublist (cs.map Tree.type) := by
  induction cs with
  | nil => simp [lays, keptAll]
  | cons c cs ih =>
    simp only [lays, keptAll]
    split
    · exact ih.cons _
    · simp only [List.map_cons, kept_type, lay_type]; exact ih.cons_cons _

mutual

theorem fit_lay (t : Tree) (b : Bool) (hs : Sound t) : Fit b (lay t) := by
  match t, hs with
  | .leaf type uuid data, hs => exact ⟨hs.2.1, hs.2.2.1, hs.2.2.2, by simp⟩
  | .node type cs, hs =>
    obtain ⟨hg, ho, h2⟩ := hs
    exact ⟨hg, ho.sub (kept_types cs), by simp, fits_lay cs b h2⟩

theorem fits_lay (cs : List Tree) (b : Bool) (hs : Sounds cs) : Fits b (lays cs) := by
  match cs, hs with
  | [], _ => trivial
  | c :: cs, hs => exact ⟨fit_lay c _ hs.1, fits_lay cs b hs.2⟩

end

mutual

theorem kept_lay (t : Tree) (h : NoFree t) : kept (lay t) = t := by
  match t, h with
  | .leaf .., _ => rfl
  | .node type cs, h => simp only [lay, kept]; rw [keptAll_lays cs h]

theorem keptAll_lays (cs : List Tree) (h : NoFrees cs) : keptAll (lays cs) = cs := by
  match cs, h with
  | [], _ => rfl
  | c :: cs, h =>
    simp only [lays, keptAll, lay_type, if_neg h.1]
    rw [kept_lay c h.2.1, keptAll_lays cs h.2.2]

end

/-- Boxes that fit are read, also from a stream of 4 GB and more. -/
theorem c32_fitting_box_is_read (l : Laid) (rest : Bytes) (hf : Fit rest.isEmpty l)
    (hl : (wire l).length < 4294967296) :
    ∃ h, parse (wire l ++ rest) = .ok (kept l, h, rest) ∧ h.size = (wire l).length ∧ h.type = l.type :=
  read_box l _ rest (by simp only [List.length_append]; omega) hl hf

/-- Writing a tree gives the bytes of its boxes, as many as the computed size, and reading those bytes,
whatever follows them, gives the tree without the free space inside containers. -/
theorem c32_write_read (t : Tree) (hs : Sound t) (rest : Bytes)
    (hl : (wire (lay t)).length < 4294967296) :
    runW (size t) (ser t) = .ok (wire (lay t)) ∧ (wire (lay t)).length = size t ∧
    ∃ h, parse (wire (lay t) ++ rest) = .ok (kept (lay t), h, rest) := by
  obtain ⟨h, hp, _⟩ := c32_fitting_box_is_read (lay t) rest (fit_lay t _ hs) hl
  exact ⟨ser_eq t hs hl, (size_eq t hs hl).symm, h, hp⟩

/-- A tree without free space inside containers comes back as it was. -/
theorem c32_roundtrip (t : Tree) (hs : Sound t) (hf : NoFree t) (rest : Bytes)
    (hl : (wire (lay t)).length < 4294967296) :
    ∃ bytes, runW (size t) (ser t) = .ok bytes ∧ bytes.length = size t ∧
      ∃ h, parse (bytes ++ rest) = .ok (t, h, rest) := by
  obtain ⟨h1, h2, h3⟩ := c32_write_read t hs rest hl
  rw [kept_lay t hf] at h3
  exact ⟨_, h1, h2, h3⟩

/-! ## Cases -/

/-- A movie with a header, free space, and a track with a header and an empty media box. -/
def sampleMovie : Tree := .node (fcc 'm' 'o' 'o' 'v')
  [.leaf (fcc 'm' 'v' 'h' 'd') [] [1, 2, 3], .leaf (fcc 'f' 'r' 'e' 'e') [] [0, 0],
   .node (fcc 't' 'r' 'a' 'k') [.leaf (fcc 't' 'k' 'h' 'd') [] [4], .node (fcc 'm' 'd' 'i' 'a') []]]

example : Sound sampleMovie := by
  refine ⟨?_, ?_, ⟨?_, ?_, ?_, ?_⟩, ⟨?_, ?_, ?_, ?_⟩, ⟨?_, ?_, ⟨?_, ?_, ?_, ?_⟩, ⟨?_, ?_, trivial⟩, trivial⟩, trivial⟩
  all_goals first | (unfold Once; decide +kernel) | (unfold IsContainer; decide +kernel) | decide +kernel

example : (match runW (size sampleMovie) (ser sampleMovie) with
    | .ok bs => bs.length == 54 && (match parse (bs ++ [7]) with
      | .ok (.node _ [.leaf _ _ d, .node _ [_, .node _ []]], h, r) => d == [1, 2, 3] && h.size == 54 && r == [7]
      | _ => false)
    | _ => false) = true := by decide +kernel

/-- A child that reaches past its container is refused. -/
example : parse (be 4 20 ++ be 4 (fcc 'd' 'i' 'n' 'f') ++ be 4 16 ++ be 4 (fcc 'a' 'b' 'c' 'd') ++ be 8 0)
    = .err .badData := by
  have : (match parse (be 4 20 ++ be 4 (fcc 'd' 'i' 'n' 'f') ++ be 4 16 ++ be 4 (fcc 'a' 'b' 'c' 'd') ++ be 8 0) with
    | .err .badData => true | _ => false) = true := by decide +kernel
  revert this
  generalize parse _ = x
  intro h
  split at h <;> simp_all

/-- A second track header is refused. -/
example : (match parse (be 4 24 ++ be 4 (fcc 't' 'r' 'a' 'k') ++ be 4 8 ++ be 4 (fcc 't' 'k' 'h' 'd') ++
    be 4 8 ++ be 4 (fcc 't' 'k' 'h' 'd')) with | .err .badData => true | _ => false) = true := by decide +kernel

/-- Sizes of 0 at the end of the stream. -/
example : (match parse (be 4 0 ++ be 4 (fcc 't' 'r' 'a' 'k') ++ be 4 0 ++ be 4 (fcc 't' 'k' 'h' 'd') ++ [9])
    with | .ok (.node _ [.leaf _ _ d], h, r) => d == [9] && h.size == 17 && r == [] | _ => false) = true := by
  decide +kernel

end Verif.Tree
