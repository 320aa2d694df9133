import Verif.Model.Ipro
import Verif.Lemmas.Protect
import Verif.Lemmas.Fails
import Verif.Lemmas.Strings

/-!
# C80: protection of items

Full property: the protections given to the items of a meta box are found by the index that was returned, with all boxes that were
added to them, and are the same after writing and reading. It holds for up to 65535 protections.
-/

namespace Verif.Ipro

open Verif.Ent
open Verif.Prot

variable {α : Type}

/-! ## Specification -/

/-- A protection: scheme, version, address, and the boxes that were added. -/
structure Given (α : Type) where
  scheme : Nat
  version : Nat
  url : Option Bytes
  infos : List (Info α)

/-- What a program may do. -/
inductive Op (α : Type) where
  | new (scheme version : Nat) (url : Option Bytes)
  | info (index : Nat) (x : Info α)

/-- What it should do: the indices are 1, 2, and so on; a box for an index that was not given is refused. -/
def plan (l : List (Given α)) : Op α → List (Given α) × Res Nat
  | .new s v u => (l ++ [⟨s, v, u, []⟩], .ok (l.length + 1))
  | .info i x =>
    if 1 ≤ i ∧ i ≤ l.length then (l.modify (i - 1) fun g => { g with infos := g.infos ++ [x] }, .ok 0) else (l, .err .badParam)

/-- What it does. An operation that fails changes nothing. -/
def step (s : Option (List (Bx α))) : Op α → Option (List (Bx α)) × Res Nat
  | .new a v u => (some (new s a v u).1, .ok (new s a v u).2)
  | .info i x =>
    match addInfo s i x with
    | .ok l => (some l, .ok 0)
    | .err e => (s, .err e)
    | .ub => (s, .ub)

/-- A history: the last state, and the answers. -/
def runs {σ β : Type} (f : σ → Op α → σ × β) (s : σ) : List (Op α) → σ × List β
  | [] => (s, [])
  | o :: os => ((runs f (f s o).1 os).1, (f s o).2 :: (runs f (f s o).1 os).2)

/-- The number of protections in a history. -/
def news : List (Op α) → Nat
  | [] => 0
  | .new _ _ _ :: os => news os + 1
  | .info _ _ :: os => news os

/-- In memory. -/
def Given.mem (g : Given α) : Bx α :=
  .sinf ⟨none, some ((0, 0), ⟨g.scheme, g.version, g.url.map (· ++ [0])⟩), some g.infos⟩

/-- The meta box has these protections; it may have no box for none. -/
def Holds (s : Option (List (Bx α))) (l : List (Given α)) : Prop := s.getD [] = l.map Given.mem ∧ (s = none → l = [])

/-- ISO/IEC 14496-12, 8.11.5: the number of protections, and the protections. -/
def layout (version flags n : Nat) (bytes : Bytes) : Bytes := fullBox (fcc 'i' 'p' 'r' 'o') version flags (be 2 n ++ bytes)

/-- 8.12.1, without an original format. -/
def itemWire (scheme version : Nat) (url infos : Bytes) : Bytes :=
  box (fcc 's' 'i' 'n' 'f') (schemeWire scheme version url ++ box (fcc 's' 'c' 'h' 'i') infos)

/-! ## In memory -/

theorem find_holds {s : Option (List (Bx α))} {l : List (Given α)} (h : Holds s l) (i : Nat) :
    find s i = if 1 ≤ i ∧ i ≤ l.length then entry (l.map Given.mem) i else .err .badParam := by
  obtain ⟨h1, h2⟩ := h
  have hb : ¬ (1 ≤ i ∧ i ≤ l.length) → entry (l.map Given.mem) i = .err .badParam := by
    intro hn
    unfold entry
    by_cases h0 : i = 0
    · rw [if_pos h0]
    · rw [if_neg h0, List.getElem?_eq_none (by rw [List.length_map]; omega)]
  unfold find
  cases s with
  | none =>
    have := h2 rfl
    subst this
    rw [if_neg (by simp only [List.length_nil]; omega)]
  | some m =>
    simp only [Option.getD_some] at h1
    subst h1
    simp only
    split
    · rfl
    · exact hb ‹_›

theorem entry_mem {l : List (Given α)} {i : Nat} {g : Given α} (h0 : 1 ≤ i) (hg : l[i - 1]? = some g) :
    entry (l.map Given.mem) i = .ok ⟨none, some ((0, 0), ⟨g.scheme, g.version, g.url.map (· ++ [0])⟩), some g.infos⟩ := by
  unfold entry
  rw [if_neg (by omega), List.getElem?_map, hg]
  rfl

theorem step_plan {s : Option (List (Bx α))} {l : List (Given α)} (h : Holds s l) (o : Op α) (hn : l.length + news [o] < 65536) :
    Holds (step s o).1 (plan l o).1 ∧ (step s o).2 = (plan l o).2 := by
  cases o with
  | new a v u =>
    refine ⟨⟨?_, ?_⟩, ?_⟩
    · show s.getD [] ++ _ = (l ++ _).map _
      rw [h.1]
      simp [Given.mem]
    · intro e; cases e
    · show Res.ok (((s.getD []).length + 1) % 65536) = _
      rw [h.1, List.length_map, Nat.mod_eq_of_lt (by simpa [news] using hn)]
      rfl
  | info i x =>
    have hf := find_holds h i
    by_cases hi : 1 ≤ i ∧ i ≤ l.length
    · rw [if_pos hi] at hf
      obtain ⟨g, hg⟩ : ∃ g, l[i - 1]? = some g := ⟨l[i - 1]'(by omega), List.getElem?_eq_getElem _⟩
      rw [entry_mem hi.1 hg] at hf
      have ha : addInfo s i x = .ok ((s.getD []).set (i - 1)
          (.sinf ⟨none, some ((0, 0), ⟨g.scheme, g.version, g.url.map (· ++ [0])⟩), some (g.infos ++ [x])⟩)) := by
        unfold addInfo
        rw [hf]
        rfl
      have hp : plan l (.info i x) = (l.modify (i - 1) fun g => { g with infos := g.infos ++ [x] }, .ok 0) := if_pos hi
      unfold step
      simp only [ha, hp]
      refine ⟨⟨?_, fun e => by cases e⟩, trivial⟩
      simp only [Option.getD_some, h.1]
      apply List.ext_getElem?
      intro j
      rw [List.getElem?_map, List.getElem?_modify, List.getElem?_set, List.length_map]
      by_cases hj : i - 1 = j
      · subst hj
        rw [if_pos rfl, if_pos (by omega), hg]
        simp [Given.mem]
      · rw [if_neg hj, List.getElem?_map]
        cases l[j]? <;> simp [hj]
    · rw [if_neg hi] at hf
      have ha : addInfo s i x = .err .badParam := by unfold addInfo; rw [hf]; rfl
      have hp : plan l (.info i x) = (l, .err .badParam) := if_neg hi
      unfold step
      simp only [ha, hp]
      exact ⟨h, trivial⟩

theorem plan_length (l : List (Given α)) (o : Op α) : (plan l o).1.length = l.length + news [o] := by
  cases o with
  | new a v u => simp [plan, news]
  | info i x =>
    unfold plan
    simp only
    split <;> simp [news]

/-- Any history of calls does what it should, for fewer than 65536 protections. -/
theorem c80_history_partial (ops : List (Op α)) (hn : news ops < 65536) :
    Holds (runs step none ops).1 (runs plan [] ops).1 ∧ (runs step none ops).2 = (runs plan [] ops).2 := by
  have : ∀ (ops : List (Op α)) (s : Option (List (Bx α))) (l : List (Given α)), Holds s l → l.length + news ops < 65536 →
      Holds (runs step s ops).1 (runs plan l ops).1 ∧ (runs step s ops).2 = (runs plan l ops).2 := by
    intro ops
    induction ops with
    | nil => intro s l h _; exact ⟨h, rfl⟩
    | cons o os ih =>
      intro s l h hl
      have hnew : l.length + news [o] + news os < 65536 := by
        cases o <;> simp only [news] at hl ⊢ <;> omega
      obtain ⟨h1, h2⟩ := step_plan h o (by omega)
      obtain ⟨h3, h4⟩ := ih _ _ h1 (by rw [plan_length]; exact hnew)
      exact ⟨h3, by simp only [runs, h2, h4]⟩
  exact this ops none [] ⟨rfl, fun _ => rfl⟩ (by simpa using hn)

/-- The index of one more protection than 65535 is 0, which is none; the next one is again that of the first. -/
theorem c80_index_wraps (s : Option (List (Bx α))) (scheme version : Nat) (url : Option Bytes) :
    ((s.getD []).length = 65535 → (new s scheme version url).2 = 0) ∧
    ((s.getD []).length = 65536 → (new s scheme version url).2 = 1) := by
  constructor <;> intro h <;> (show ((s.getD []).length + 1) % 65536 = _) <;> rw [h]

/-- The scheme is that of the protection with the index, and there is no other. -/
theorem c80_scheme (s : Option (List (Bx α))) (l : List (Given α)) (h : Holds s l) (hp : ∀ g ∈ l, ∀ u, g.url = some u → Plain u)
    (i : Nat) (want : Bool) : getScheme s i want =
      match (if i = 0 then none else l[i - 1]?) with
      | some g => .ok (g.scheme, g.version, if want then g.url else none)
      | none => .err .badParam := by
  have hf := find_holds h i
  unfold getScheme
  by_cases hi : 1 ≤ i ∧ i ≤ l.length
  · obtain ⟨g, hg⟩ : ∃ g, l[i - 1]? = some g := ⟨l[i - 1]'(by omega), List.getElem?_eq_getElem _⟩
    rw [if_pos hi, entry_mem hi.1 hg] at hf
    rw [hf, if_neg (by omega), hg]
    show (match want, g.url.map (· ++ [0]) with
      | true, some b => (match Str.cstr b with | none => .ub | some u => .ok (g.scheme, g.version, some u))
      | _, _ => .ok (g.scheme, g.version, none) : Res (Nat × Nat × Option Bytes)) = _
    cases want with
    | false => rfl
    | true =>
      cases hu : g.url with
      | none => simp [hu]
      | some u =>
        simp only [Option.map_some]
        rw [Str.cstr_text (hp g (List.mem_of_getElem? hg) u hu)]
        simp [hu]
  · rw [if_neg hi] at hf
    rw [hf]
    have : (if i = 0 then none else l[i - 1]?) = none := by
      split
      · rfl
      · exact List.getElem?_eq_none (by omega)
    rw [this]
    rfl

/-- A box of a type is the first of those that were added to the protection. -/
theorem c80_info (s : Option (List (Bx α))) (l : List (Given α)) (h : Holds s l) (i type : Nat) : getInfo s i type =
      match (if i = 0 then none else l[i - 1]?) with
      | some g => (match (g.infos.filter fun x => x.type = type).head? with | some x => .ok x | none => .err .notFound)
      | none => .err .badParam := by
  have hf := find_holds h i
  unfold getInfo
  by_cases hi : 1 ≤ i ∧ i ≤ l.length
  · obtain ⟨g, hg⟩ : ∃ g, l[i - 1]? = some g := ⟨l[i - 1]'(by omega), List.getElem?_eq_getElem _⟩
    rw [if_pos hi, entry_mem hi.1 hg] at hf
    rw [hf, if_neg (by omega), hg]
    simp only [List.head?_filter]
    rfl
  · rw [if_neg hi] at hf
    rw [hf]
    have : (if i = 0 then none else l[i - 1]?) = none := by
      split
      · rfl
      · exact List.getElem?_eq_none (by omega)
    rw [this]
    rfl

/-! ## In files -/

theorem parse_kids {C : Class α} {ks : List (Kid (Bx α))} (h : Readable (boxes C) ks) {version flags n : Nat} (hv : version < 256)
    (hf : flags < 2 ^ 24) (hn : n < 65536) (hl : 14 + (wire ks).length < 4294967296) (rest : Bytes) :
    if (stay ks).length = n then
      ∃ hd, parseAtom (parse C) (layout version flags n (wire ks) ++ rest) = .ok (((version, flags), vals (stay ks)), hd, rest)
    else parseAtom (parse C) (layout version flags n (wire ks) ++ rest) = .err .badData := by
  have ht : fcc 'i' 'p' 'r' 'o' = typeIpro := by decide
  have hz : 12 + (be 2 n ++ wire ks).length = 14 + (wire ks).length := by simp; omega
  have hvl : (vals (stay ks)).length = (stay ks).length := by simp [vals]
  have ha : ParsesAt (addAll (boxes C) addBox [] (12 + (be 2 n ++ wire ks).length)) 14 (wire ks) (vals (stay ks)) :=
    parsesAt_addAll h (by rw [hz]) (by omega) (by have := adds_app [] ks; rwa [List.nil_append] at this)
  unfold layout
  rw [ht]
  split
  · refine Str.fullBox_reads (body := parse C) ?_ (by omega) (by decide) (by decide) rest
    unfold parse
    refine ((parses_versionFlags hv hf).at _).bind (((parses_get16' hn).at _).bind ?_)
    refine ParsesAt.bind_nil (by simpa using ha) ?_
    rw [if_neg (by rw [hvl]; omega)]
    exact (parses_pure _).at _
  · rw [Str.fullBox_eq]
    refine parseAtom_fails (body := parse C) ?_ (by simp; omega) (by omega) (by decide) (by decide) rest
    unfold parse
    refine .bind ((parses_versionFlags hv hf).at _) (.bind ((parses_get16' hn).at _) ?_)
    rw [← List.append_nil (wire ks)]
    refine .bind (by simpa using ha) ?_
    rw [if_pos (by rw [hvl]; omega)]
    exact failsAt_fail _

/-- A box is read if the number in it is that of the boxes but free space, and refused otherwise. -/
theorem c80_read (C : Class α) (ks : List (Kid (Bx α))) (h : Readable (boxes C) ks) (version flags n : Nat) (hv : version < 256)
    (hf : flags < 2 ^ 24) (hn : n < 2 ^ 16) (hl : (wire ks).length < 2 ^ 32 - 14) (rest : Bytes) :
    if (stay ks).length = n then
      ∃ hd, parseAtom (parse C) (layout version flags n (wire ks) ++ rest) = .ok (((version, flags), vals (stay ks)), hd, rest)
    else parseAtom (parse C) (layout version flags n (wire ks) ++ rest) = .err .badData :=
  parse_kids h hv hf (by omega) (by omega) rest

theorem writes {C : Class α} {ks : List (Kid (Bx α))} (h : WritesAll (boxes C) ks) {version flags : Nat}
    (hl : 14 + (wire ks).length < 4294967296) :
    runW (size C (vals ks)) (serialize C version flags (vals ks)) = .ok (layout version flags ks.length (wire ks)) := by
  have ht : fcc 'i' 'p' 'r' 'o' = typeIpro := by decide
  have hz : size C (vals ks) = 14 + (wire ks).length := listSize_writes h hl
  have hv : (vals ks).length = ks.length := by simp [vals]
  have he : EmitsFull (serialize C version flags (vals ks)) (be 4 (size C (vals ks)) ++ be 4 typeIpro ++ (be 1 version ++ be 3 flags) ++
      (be 2 ks.length ++ wire ks)) := by
    unfold serialize
    rw [hv]
    exact (emits_serFull _ _ _ _).then ((emits_put16 _).then (Emits.thenAssert (emits_writes h)))
  rw [he.runW (by rw [hz]; simp only [List.length_append, be_length]; omega) (by omega)]
  unfold layout
  rw [Str.fullBox_eq, ht, hz]
  simp only [List.append_assoc, List.length_append, be_length]
  rw [show 12 + (2 + (wire ks).length) = 14 + (wire ks).length by omega]

/-- Boxes that survive by themselves survive in this one, if there are fewer than 65536. -/
theorem c80_round_trip_partial (C : Class α) (ks : List (Kid (Bx α))) (h : Family (boxes C) ks) (version flags : Nat)
    (hv : version < 256) (hf : flags < 2 ^ 24) (hn : ks.length < 2 ^ 16) (hl : (wire ks).length < 2 ^ 32 - 14) :
    BoxRoundTrip (size C (vals ks)) (serialize C version flags (vals ks)) (parse C) ((version, flags), vals ks)
      (layout version flags ks.length (wire ks)) := by
  have hw := family_writes h
  refine ⟨writes hw (by omega), ?_, fun rest => ?_⟩
  · have hz : size C (vals ks) = 14 + (wire ks).length := listSize_writes hw (by omega)
    unfold layout
    rw [hz, Str.fullBox_eq]
    simp only [List.length_append, be_length]
    omega
  · have := parse_kids h.readable hv hf (n := ks.length) (by omega) (by omega) rest
    rw [h.stay, if_pos rfl] at this
    exact this

/-- More are written, but what is written is refused. -/
theorem c80_too_many (C : Class α) (ks : List (Kid (Bx α))) (h : Family (boxes C) ks) (version flags : Nat)
    (hv : version < 256) (hf : flags < 2 ^ 24) (hn : 2 ^ 16 ≤ ks.length) (hl : (wire ks).length < 2 ^ 32 - 14) (rest : Bytes) :
    ∃ bytes, runW (size C (vals ks)) (serialize C version flags (vals ks)) = .ok bytes ∧
      parseAtom (parse C) (bytes ++ rest) = .err .badData := by
  refine ⟨_, writes (family_writes h) (by omega), ?_⟩
  have e : layout version flags ks.length (wire ks) = layout version flags (ks.length % 65536) (wire ks) := by
    unfold layout
    have h1 := be_unbe (be 2 ks.length)
    rw [be_length, unbe_be] at h1
    rw [← h1]
  rw [e]
  have := parse_kids h.readable hv hf (n := ks.length % 65536) (Nat.mod_lt _ (by decide)) (by omega) rest
  rw [h.stay, if_neg (by omega)] at this
  exact this

/-! ## From one program to another -/

/-- A protection with boxes whose bytes are known. -/
structure Item (α : Type) where
  scheme : Nat
  version : Nat
  url : Option Bytes
  kids : List (Kid (Info α))

def Item.given (x : Item α) : Given α := ⟨x.scheme, x.version, x.url, vals x.kids⟩

def Item.wire (x : Item α) : Bytes := itemWire x.scheme x.version (x.url.getD []) (Ent.wire x.kids)

structure Item.Fits (C : Class α) (x : Item α) : Prop where
  scheme : x.scheme < 2 ^ 32
  version : x.version < 2 ^ 32
  url : Plain (x.url.getD [])
  kids : Family (info C) x.kids

/-- As it is read. -/
def Item.back (x : Item α) : Sinf α := ⟨none, some (schmBack x.scheme x.version (x.url.getD [])), some (vals x.kids)⟩

def Item.parts (x : Item α) (v : (Nat × Nat) × Str.Schm) : List (Kid (Part α)) :=
  [⟨fcc 's' 'c' 'h' 'm', .schm v.1 v.2, schemeWire x.scheme x.version (x.url.getD [])⟩,
    ⟨fcc 's' 'c' 'h' 'i', .schi (vals x.kids), box (fcc 's' 'c' 'h' 'i') (Ent.wire x.kids)⟩]

theorem Item.wire_parts (x : Item α) (v : (Nat × Nat) × Str.Schm) : box (fcc 's' 'i' 'n' 'f') (Ent.wire (x.parts v)) = x.wire := by
  simp [Item.parts, Item.wire, itemWire, Ent.wire]

theorem Item.length (x : Item α) (v : (Nat × Nat) × Str.Schm) : x.wire.length = 8 + (Ent.wire (x.parts v)).length := by
  rw [← x.wire_parts v, box_length]

theorem Item.bounds (x : Item α) : 28 + (x.url.getD []).length + (Ent.wire x.kids).length ≤ x.wire.length := by
  have := schemeWire_length x.scheme x.version (x.url.getD [])
  unfold Item.wire itemWire
  rw [box_length, List.length_append, box_length, this]
  split
  · simp [‹_ = []›]; omega
  · omega

theorem Item.writes {C : Class α} {x : Item α} (h : x.Fits C) (hl : x.wire.length < 4294967296) :
    Writes (boxes C) x.given.mem x.wire := by
  have hb := x.bounds
  have hi := x.length ((0, 0), ⟨x.scheme, x.version, x.url.map (· ++ [0])⟩)
  have hs := schi_writes (family_writes h.kids) (show 8 + (Ent.wire x.kids).length < 4294967296 by omega)
  have := sinf_writes (C := C) (x := ⟨none, some ((0, 0), ⟨x.scheme, x.version, x.url.map (· ++ [0])⟩), some (vals x.kids)⟩)
    (ks := x.parts ((0, 0), ⟨x.scheme, x.version, x.url.map (· ++ [0])⟩)) rfl (by
      intro k hk
      simp only [Item.parts, List.mem_cons, List.not_mem_nil, or_false] at hk
      rcases hk with rfl | rfl
      · refine schm_writes C h.scheme h.version h.url ?_ (by omega)
        cases x.url with
        | none => exact .inr ⟨rfl, rfl⟩
        | some u => exact .inl rfl
      · exact ⟨hs.size, hs.write⟩) (by omega)
  rw [x.wire_parts] at this
  exact ⟨this.size, this.write⟩

theorem Item.reads {C : Class α} {x : Item α} (h : x.Fits C) (hl : x.wire.length < 4294967296) :
    Reads (boxes C) (fcc 's' 'i' 'n' 'f') (.sinf x.back) x.wire := by
  have hb := x.bounds
  have hi := x.length (schmBack x.scheme x.version (x.url.getD []))
  have h1 : Tree.isFree (fcc 's' 'c' 'h' 'm') = false := by decide
  have h2 : Tree.isFree (fcc 's' 'c' 'h' 'i') = false := by decide
  have hs := schi_part (C := C) h.kids.readable (show 8 + (Ent.wire x.kids).length < 4294967296 by omega)
  rw [h.kids.stay] at hs
  have := sinf_reads (C := C) (x := x.back) (ks := x.parts (schmBack x.scheme x.version (x.url.getD []))) (by
      intro k hk
      simp only [Item.parts, List.mem_cons, List.not_mem_nil, or_false] at hk
      rcases hk with rfl | rfl
      · exact schm_reads C h.scheme h.version h.url (by omega)
      · exact hs) (by
      simp only [adds, Item.parts, h1, h2, Bool.false_eq_true, if_false]
      rfl) (by omega)
  rw [x.wire_parts] at this
  exact reads_into Bx.sinf this fun hd ht => if_pos ht

theorem find_vals {C : Class α} {ks : List (Kid (Info α))} (h : Readable (info C) ks) (t : Nat) :
    (vals ks).find? (fun x => x.type = t) = first t ks := by
  induction ks with
  | nil => rfl
  | cons k ks ih =>
    have hk := reads_type (h k (by simp))
    have ih := ih fun x hx => h x (by simp [hx])
    unfold first vals at *
    rw [List.map_cons, List.find?_cons, List.find?_cons, hk]
    by_cases e : k.type = t
    · simp [e]
    · simp only [e, decide_false]
      exact ih

/-- A program that makes protections and writes them, and one that reads them: the second is told what the first was given. An
empty address is as none. -/
theorem c80_saved (C : Class α) (l : List (Item α)) (h : ∀ x ∈ l, x.Fits C) (hn : l.length < 2 ^ 16)
    (hl : (l.flatMap Item.wire).length < 2 ^ 32 - 14) (rest : Bytes) :
    runW (size C (l.map fun x => x.given.mem)) (serialize C 0 0 (l.map fun x => x.given.mem)) =
      .ok (layout 0 0 l.length (l.flatMap Item.wire)) ∧
    ∃ m hd, parseAtom (parse C) (layout 0 0 l.length (l.flatMap Item.wire) ++ rest) = .ok (((0, 0), m), hd, rest) ∧
      ∀ i, ∀ x ∈ l[i]?, (∀ want, getScheme (some m) (i + 1) want =
          .ok (x.scheme, x.version, if want ∧ x.url.getD [] ≠ [] then x.url else none)) ∧
        ∀ type, getInfo (some m) (i + 1) type =
          match first type x.kids with | some v => .ok v | none => .err .notFound := by
  obtain ⟨ks, ek⟩ : ∃ ks : List (Kid (Bx α)), ks = l.map fun x => ⟨fcc 's' 'i' 'n' 'f', x.given.mem, x.wire⟩ := ⟨_, rfl⟩
  obtain ⟨rs, er⟩ : ∃ rs : List (Kid (Bx α)), rs = l.map fun x => ⟨fcc 's' 'i' 'n' 'f', .sinf x.back, x.wire⟩ := ⟨_, rfl⟩
  have h0 : ¬ Dropped (fcc 's' 'i' 'n' 'f') := by unfold Dropped; decide
  have hlen : ∀ x ∈ l, x.wire.length < 4294967296 := fun x hx => by
    have := (List.sublist_flatten_of_mem (List.mem_map_of_mem (f := Item.wire) hx)).length_le
    rw [← List.flatMap_def] at this
    omega
  have hk : Ent.wire ks = l.flatMap Item.wire := by simp [ek, Ent.wire, List.flatMap_map]
  have hr : Ent.wire rs = l.flatMap Item.wire := by simp [er, Ent.wire, List.flatMap_map]
  have hv : vals ks = l.map fun x => x.given.mem := by simp [ek, vals]
  have hw : WritesAll (boxes C) ks := by
    intro k hk
    rw [ek] at hk
    obtain ⟨x, hx, rfl⟩ := List.mem_map.1 hk
    exact Item.writes (h x hx) (hlen x hx)
  have hrd : Readable (boxes C) rs := by
    intro k hk
    rw [er] at hk
    obtain ⟨x, hx, rfl⟩ := List.mem_map.1 hk
    exact Item.reads (h x hx) (hlen x hx)
  have hst : stay rs = rs := by
    apply List.filter_eq_self.2
    intro k hk
    rw [er] at hk
    obtain ⟨x, hx, rfl⟩ := List.mem_map.1 hk
    simpa using h0
  refine ⟨?_, vals rs, ?_⟩
  · have := writes hw (version := 0) (flags := 0) (by rw [hk]; omega)
    rw [hk, hv] at this
    simpa [ek] using this
  · have := parse_kids hrd (version := 0) (flags := 0) (n := l.length) (by decide) (by decide) (by omega) (by rw [hr]; omega) rest
    rw [hst, if_pos (by simp [er]), hr] at this
    obtain ⟨hd, hp⟩ := this
    refine ⟨hd, hp, fun i x hx => ?_⟩
    have he : find (some (vals rs)) (i + 1) = .ok x.back := by
      show entry (vals rs) (i + 1) = _
      unfold entry
      rw [if_neg (by omega), Nat.add_sub_cancel]
      have : (vals rs)[i]? = some (.sinf x.back) := by
        simp only [vals, er, List.map_map, List.getElem?_map]
        rw [Option.mem_def.1 hx]
        rfl
      rw [this]
    have hf := h x (List.mem_of_getElem? (Option.mem_def.1 hx))
    refine ⟨fun want => ?_, fun type => ?_⟩
    · unfold getScheme
      rw [he]
      simp only [Res.ok_bind, Item.back, schmBack]
      by_cases h0 : x.url.getD [] = []
      · rw [if_pos h0]
        cases want <;> simp [h0]
      · rw [if_neg h0]
        have hu : x.url = some (x.url.getD []) := by
          cases hx' : x.url with
          | none => rw [hx'] at h0; exact absurd rfl h0
          | some u => rfl
        cases want
        · rfl
        · simp only
          rw [Str.cstr_text hf.url]
          simp only
          rw [if_pos ⟨trivial, h0⟩, ← hu]
    · unfold getInfo
      rw [he]
      simp only [Res.ok_bind, Item.back]
      rw [find_vals hf.kids.readable]
      cases first type x.kids <;> rfl

/-! ## Files with other protections -/

/-- A protection without a scheme, which the standard allows: asking for the scheme is undefined. -/
theorem c80_no_scheme (C : Class α) (format : Nat) (hf : format < 2 ^ 32) (rest : Bytes) (want : Bool) :
    ∃ m hd, parseAtom (parse C) (layout 0 0 1 (box (fcc 's' 'i' 'n' 'f') (box (fcc 'f' 'r' 'm' 'a') (be 4 format))) ++ rest) =
      .ok (((0, 0), m), hd, rest) ∧ getScheme (some m) 1 want = .ub := by
  have hr : Reads (boxes C) (fcc 's' 'i' 'n' 'f') (.sinf ⟨some format, none, none⟩)
      (box (fcc 's' 'i' 'n' 'f') (box (fcc 'f' 'r' 'm' 'a') (be 4 format))) := by
    have := sinf_reads (C := C) (x := ⟨some format, none, none⟩)
      (ks := [⟨fcc 'f' 'r' 'm' 'a', .frma format, box (fcc 'f' 'r' 'm' 'a') (be 4 format)⟩]) (by
        intro k hk
        rw [List.mem_singleton.1 hk]
        exact frma_reads C hf) (by
        have h1 : Tree.isFree (fcc 'f' 'r' 'm' 'a') = false := by decide
        simp only [adds, h1, Bool.false_eq_true, if_false]
        rfl) (by simp [wire, box])
    simp only [wire, List.flatMap_cons, List.flatMap_nil, List.append_nil] at this
    exact reads_into Bx.sinf this fun hd ht => if_pos ht
  have h0 : ¬ Dropped (fcc 's' 'i' 'n' 'f') := by unfold Dropped; decide
  have := parse_kids (C := C) (ks := [⟨fcc 's' 'i' 'n' 'f', .sinf ⟨some format, none, none⟩,
      box (fcc 's' 'i' 'n' 'f') (box (fcc 'f' 'r' 'm' 'a') (be 4 format))⟩]) (by
        intro k hk
        rw [List.mem_singleton.1 hk]
        exact hr) (version := 0) (flags := 0) (n := 1) (by decide) (by decide) (by decide) (by simp [wire, box]) rest
  simp only [stay, List.filter_cons, h0, not_false_eq_true, decide_true, if_true, List.filter_nil, List.length_cons, List.length_nil,
    wire, List.flatMap_cons, List.flatMap_nil, List.append_nil, vals, List.map_cons, List.map_nil] at this
  obtain ⟨hd, hp⟩ := this
  exact ⟨_, hd, hp, by cases want <;> rfl⟩

/-- A box of another type is kept among the protections: asking for its scheme takes it for one. -/
theorem c80_other_box (C : Class α) (t : Nat) (v : α) (b : Bytes) (h : Reads C t v b) (ht : t ≠ fcc 's' 'i' 'n' 'f')
    (hd : ¬ Dropped t) (hl : b.length < 2 ^ 32 - 14) (rest : Bytes) (want : Bool) :
    ∃ m hd, parseAtom (parse C) (layout 0 0 1 b ++ rest) = .ok (((0, 0), m), hd, rest) ∧ getScheme (some m) 1 want = .ub := by
  have := parse_kids (C := C) (ks := [⟨t, .other v, b⟩]) (by
        intro k hk
        rw [List.mem_singleton.1 hk]
        exact reads_into Bx.other h fun hd e => if_neg (by rw [e]; exact ht)) (version := 0) (flags := 0) (n := 1) (by decide) (by decide) (by decide)
        (by simp [wire]; omega) rest
  simp only [stay, List.filter_cons, hd, not_false_eq_true, decide_true, if_true, List.filter_nil, List.length_cons, List.length_nil,
    wire, List.flatMap_cons, List.flatMap_nil, List.append_nil, vals, List.map_cons, List.map_nil] at this
  obtain ⟨hd, hp⟩ := this
  exact ⟨_, hd, hp, rfl⟩

/-! ## Cases -/

/-- Two protections, boxes for both and for a third that is not there. -/
example : (runs (step (α := Unit)) none [.new 1 2 none, .info 1 (.slt 5), .new 3 4 (some [65]), .info 2 (.slt 6), .info 3 (.slt 7),
    .info 0 (.slt 7)]).2 = [.ok 1, .ok 0, .ok 2, .ok 0, .err .badParam, .err .badParam] := by decide

example : getScheme (runs (step (α := Unit)) none [.new 1 2 none, .new 3 4 (some [65])]).1 2 true = .ok (3, 4, some [65]) := by decide

/-- A class of boxes of bytes. -/
def raw : Class Bytes where
  parse h := getBytes (h.size - 8)
  size x := 8 + x.length
  ser x := serBase (8 + x.length) (fcc 'a' 'b' 'c' 'd') ;; putBytes x ;; W.assertFull

/-- A salt survives, so it can be in a protection of `c80_saved`. -/
example : Item.Fits raw ⟨fcc 'i' 'A' 'E' 'C', 1, some [104, 116], [⟨fcc 'i' 'S' 'L' 'T', .slt 5, box (fcc 'i' 'S' 'L' 'T') (be 8 5)⟩]⟩ := by
  refine ⟨by decide, by decide, by unfold Plain; decide, ?_⟩
  intro k hk
  rw [List.mem_singleton.1 hk]
  have hw := slt_writes raw (n := 5) (by decide)
  exact ⟨⟨hw.size, hw.write, slt_reads raw (n := 5) (by decide)⟩, by unfold Dropped; decide⟩

example : runW (size raw [Given.mem ⟨1, 2, some [65], []⟩]) (serialize raw 0 0 [Given.mem ⟨1, 2, some [65], []⟩]) =
    .ok ([0, 0, 0, 52] ++ be 4 (fcc 'i' 'p' 'r' 'o') ++ [0, 0, 0, 0, 0, 1] ++ ([0, 0, 0, 38] ++ be 4 (fcc 's' 'i' 'n' 'f') ++
      ([0, 0, 0, 22] ++ be 4 (fcc 's' 'c' 'h' 'm') ++ [0, 0, 0, 1, 0, 0, 0, 1, 0, 0, 0, 2, 65, 0] ++
        ([0, 0, 0, 8] ++ be 4 (fcc 's' 'c' 'h' 'i'))))) := by decide +kernel

end Verif.Ipro
