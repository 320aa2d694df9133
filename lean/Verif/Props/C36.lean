import Verif.Model.Ipma
import Verif.Lemmas.Auto

/-!
# C36, C51: item properties and their associations
-/

namespace Verif.Ipma

/-! ## Specification -/

/-- Associations with 16 bits. -/
def Wide (b : Box) : Prop := b.flags &&& 1 ≠ 0
instance (b : Box) : Decidable (Wide b) := inferInstanceAs (Decidable (_ ≠ _))

/-- Layout (ISO/IEC 23008-12, 9.3): the essential flag is the top bit. -/
def assocBytes (b : Box) (a : Assoc) : Bytes :=
  if Wide b then be 2 (a.essential * 2 ^ 15 + a.index) else be 1 (a.essential * 2 ^ 7 + a.index)

def entryBytes (b : Box) (e : Entry) : Bytes :=
  (if b.version < 1 then be 2 e.item else be 4 e.item) ++ (be 1 e.assocs.length ++ e.assocs.flatMap (assocBytes b))

def layout (b : Box) : Bytes :=
  fullBox (fcc 'i' 'p' 'm' 'a') b.version b.flags (be 4 b.entries.length ++ b.entries.flatMap (entryBytes b))

/-- Values that fit the form of the box. -/
structure Fits (b : Box) : Prop where
  version : b.version < 256
  flags : b.flags < 2 ^ 24
  item : ∀ e ∈ b.entries, e.item < 2 ^ 32 ∧ (b.version < 1 → e.item < 2 ^ 16)
  count : ∀ e ∈ b.entries, e.assocs.length < 2 ^ 8
  essential : ∀ e ∈ b.entries, ∀ a ∈ e.assocs, a.essential < 2
  index : ∀ e ∈ b.entries, ∀ a ∈ e.assocs, a.index < if Wide b then 2 ^ 15 else 2 ^ 7
  size : (layout b).length < 2 ^ 32

/-- What the parser of the 16-bit form makes of an association. -/
def lose (a : Assoc) : Assoc := ⟨0, a.essential * 2 ^ 15 + a.index⟩

def losing (b : Box) : Box :=
  { b with entries := b.entries.map fun e => { e with assocs := e.assocs.map lose } }

/-! ## Lemmas -/

theorem wide_lt (x : Nat) (_ : x < 2 ^ 16) : wide x = ⟨0, x⟩ := by
  have h : w8(x &&& 0x8000) = 0 := by
    rw [show (256 : Nat) = 2 ^ 8 by decide, ← Nat.and_two_pow_sub_one_eq_mod, Nat.and_assoc]
    simp
  unfold wide
  rw [h]
  simp

theorem narrow_eq (e i : Nat) (he : e < 2) (hi : i < 2 ^ 7) : narrow (e * 2 ^ 7 + i) = ⟨e, i⟩ := by
  have : ∀ e < 2, ∀ i < 128, narrow (e * 2 ^ 7 + i) = ⟨e, i⟩ := by decide +kernel
  exact this e he i hi

theorem or_narrow {e i : Nat} (he : e < 2) (hi : i < 2 ^ 7) : i ||| w32(e <<< 7) = e * 2 ^ 7 + i := by
  have : w32(e <<< 7) = e <<< 7 := by rw [Nat.shiftLeft_eq]; omega
  rw [this, Nat.or_comm, or_shift_eq hi]

theorem or_wide {e i : Nat} (he : e < 2) (hi : i < 2 ^ 15) : i ||| w32(e <<< 15) = e * 2 ^ 15 + i := by
  have : w32(e <<< 15) = e <<< 15 := by rw [Nat.shiftLeft_eq]; omega
  rw [this, Nat.or_comm, or_shift_eq hi]

theorem emits_assoc {b : Box} {a : Assoc} (he : a.essential < 2) (hi : a.index < if Wide b then 2 ^ 15 else 2 ^ 7) :
    Emits (putAssoc b.flags a) (assocBytes b a) := by
  unfold putAssoc assocBytes
  by_cases h : Wide b
  · rw [if_pos h] at hi
    rw [if_pos h, if_pos (show b.flags &&& 1 ≠ 0 from h), or_wide he hi]
    exact emits_put16 _
  · rw [if_neg h] at hi
    rw [if_neg h, if_neg (show ¬ (b.flags &&& 1 ≠ 0) from h), or_narrow he hi]
    exact emits_put8 _

theorem parses_assoc {b : Box} {a : Assoc} (he : a.essential < 2)
    (hi : a.index < if Wide b then 2 ^ 15 else 2 ^ 7) :
    Parses (getAssoc b.flags) (assocBytes b a) (if Wide b then lose a else a) := by
  unfold getAssoc assocBytes
  by_cases h : Wide b
  · rw [if_pos h] at hi
    rw [if_pos h, if_pos h, if_pos (show b.flags &&& 1 ≠ 0 from h)]
    refine (parses_get16' (by omega)).bind_nil ?_
    rw [wide_lt _ (by omega)]
    exact parses_pure _
  · rw [if_neg h] at hi
    rw [if_neg h, if_neg h, if_neg (show ¬ (b.flags &&& 1 ≠ 0) from h)]
    refine (parses_get8' (by omega)).bind_nil ?_
    rw [narrow_eq _ _ he hi]
    exact parses_pure _

theorem assocs_length (b : Box) (l : List Assoc) :
    (l.flatMap (assocBytes b)).length = if Wide b then 2 * l.length else l.length := by
  have : (l.flatMap (assocBytes b)).length = (if Wide b then 2 else 1) * l.length :=
    flatMap_length_const _ fun a _ => by unfold assocBytes; split <;> simp
  rw [this]
  split <;> omega

theorem entries_length (b : Box) (l : List Entry) : (l.flatMap (entryBytes b)).length =
    (l.map fun e => (if b.version < 1 then 2 else 4) + 1 +
      (if b.flags &&& 1 ≠ 0 then 2 * e.assocs.length else e.assocs.length)).sum := by
  induction l with
  | nil => rfl
  | cons e l ih =>
    simp only [List.flatMap_cons, List.length_append, ih, List.map_cons, List.sum_cons, entryBytes, assocs_length]
    by_cases hv : b.version < 1 <;> by_cases hw : b.flags &&& 1 = 0 <;>
      simp only [hv, hw, Wide, ne_eq, not_true, not_false_eq_true, if_true, if_false, be_length] <;> omega

theorem count_le (b : Box) (l : List Entry) : l.length ≤ (l.flatMap (entryBytes b)).length := by
  induction l with
  | nil => simp
  | cons e l ih =>
    simp only [List.flatMap_cons, List.length_append, List.length_cons, entryBytes, be_length]
    omega

/-- What is written and what comes back, for both forms. -/
theorem round_trip (b : Box) (hb : Fits b) :
    BoxRoundTrip (size b) (serialize b) parse (if Wide b then losing b else b) (layout b) := by
  have hs := hb.size
  have hl := entries_length b b.entries
  have hc := count_le b b.entries
  simp only [layout, fullBox, box, List.length_append, be_length] at hs
  have hsz : size b = 12 + (be 4 b.entries.length ++ b.entries.flatMap (entryBytes b)).length := by
    unfold size
    simp only [List.length_append, be_length]
    omega
  refine BoxRoundTrip.ofFull (type := typeIpma) ?_ ?_ hsz ?_ (by decide) (by decide)
  · refine (emits_put32 _).then (Emits.thenAssert (Emits.each _ fun e he => ?_))
    unfold putEntry entryBytes
    refine Emits.seq ?_ ((emits_put8 _).seq (Emits.each _ fun a ha =>
      emits_assoc (hb.essential e he a ha) (hb.index e he a ha)))
    split
    · exact emits_put16 _
    · exact emits_put32 _
  · unfold parse
    refine ParsesAt.bind ((parses_versionFlags hb.version hb.flags).at _) ?_
    refine ParsesAt.bind ((parses_get32' (by omega)).at _) ?_
    refine ParsesAt.bind_nil (a := b.entries.map fun e =>
      { e with assocs := e.assocs.map fun a => if Wide b then lose a else a }) ?_ ?_
    · refine (parses_repeat_map b.entries _ _ (fun e he => ?_) rfl).at _
      unfold getEntry entryBytes
      obtain ⟨hi1, hi2⟩ := hb.item e he
      refine Parses.bind (a := e.item) ?_ ?_
      · unfold getItem
        by_cases hv : b.version < 1
        · simp only [hv, if_true]; exact parses_get16' (hi2 hv)
        · simp only [hv, if_false]; exact parses_get32' hi1
      refine (parses_get8' (hb.count e he)).bind ?_
      refine Parses.bind_nil (a := e.assocs.map fun a => if Wide b then lose a else a) ?_ (parses_pure _)
      exact parses_repeat_map _ _ _ (fun a ha => parses_assoc (hb.essential e he a ha) (hb.index e he a ha)) rfl
    · refine parsesAt_bytesRead ?_
      have hbr : 8 + (be 1 b.version ++ be 3 b.flags).length + (be 4 b.entries.length).length +
          (b.entries.flatMap (entryBytes b)).length = size b := by
        rw [hsz]; simp only [List.length_append, be_length]; omega
      rw [if_pos hbr]
      by_cases h : Wide b
      · simp only [h, if_true, losing]
        exact (parses_pure _).at _
      · simp only [h, if_false, List.map_id']
        exact (parses_pure _).at _
  · rw [hsz]; simp only [List.length_append, be_length]; omega

/-! ## The property -/

/-- The same box comes back in the 8-bit form; in the 16-bit form if no association is essential. -/
theorem c36_round_trip_partial (b : Box) (hb : Fits b)
    (h : ¬ Wide b ∨ ∀ e ∈ b.entries, ∀ a ∈ e.assocs, a.essential = 0) :
    BoxRoundTrip (size b) (serialize b) parse b (layout b) := by
  have := round_trip b hb
  by_cases hw : Wide b
  · rw [if_pos hw] at this
    have e : losing b = b := by
      have h' := h.resolve_left (fun x => x hw)
      have : b.entries.map (fun e => { e with assocs := e.assocs.map lose }) = b.entries := by
        conv => rhs; rw [← List.map_id b.entries]
        refine List.map_congr_left fun x hx => ?_
        have : x.assocs.map lose = x.assocs := by
          conv => rhs; rw [← List.map_id x.assocs]
          refine List.map_congr_left fun a ha => ?_
          have := h' x hx a ha
          simp only [lose, this, id_eq]
          rw [show 0 * 2 ^ 15 + a.index = a.index by omega, ← this]
        rw [this]; rfl
      unfold losing
      rw [this]
    rw [e] at this
    exact this
  · rw [if_neg hw] at this
    exact this

/-- In the 16-bit form no association comes back as essential: the flag of each is lost and its bit
stays in the index. -/
theorem c36_wide_loses (b : Box) (hb : Fits b) (hw : Wide b) :
    BoxRoundTrip (size b) (serialize b) parse (losing b) (layout b) := by
  have := round_trip b hb
  rwa [if_pos hw] at this

/-- So the property fails for every box of the 16-bit form with an essential association. -/
theorem c36_fails (b : Box) (hb : Fits b) (hw : Wide b) (he : ∃ e ∈ b.entries, ∃ a ∈ e.assocs, a.essential = 1) :
    ¬ BoxRoundTrip (size b) (serialize b) parse b (layout b) := by
  intro h
  obtain ⟨_, _, h1⟩ := h
  obtain ⟨_, _, h2⟩ := c36_wide_loses b hb hw
  obtain ⟨_, h1⟩ := h1 []
  obtain ⟨_, h2⟩ := h2 []
  rw [h1] at h2
  have heq : b = losing b := by
    have := (Res.ok.inj h2)
    exact (Prod.mk.inj this).1
  obtain ⟨e, he, a, ha, hess⟩ := he
  have h3 : e ∈ (losing b).entries := heq ▸ he
  obtain ⟨e', _, rfl⟩ := List.mem_map.1 h3
  obtain ⟨a', _, rfl⟩ := List.mem_map.1 ha
  cases hess

/-- An index of 128 or more in the 8-bit form, which is the one that the library creates, is written
as another index that is essential. -/
theorem c36_narrow_overflows : (runW (size ⟨0, 0, [⟨1, [⟨0, 130⟩]⟩]⟩) (serialize ⟨0, 0, [⟨1, [⟨0, 130⟩]⟩]⟩)).bind
    (fun bs => (parseAtom parse bs).bind fun r => .ok r.1.entries) = .ok [⟨1, [⟨1, 2⟩]⟩] := by decide

/-! ## C51: the properties of an item -/

/-- The properties after the calls `(property, item, essential)` of `addItemProperty`. -/
def added {α : Type} (calls : List (α × Nat × Nat)) : Iprp α :=
  calls.foldl (fun b c => addProperty b c.1 c.2.1 c.2.2) ⟨[], ⟨0, 0, []⟩⟩

/-- What was attached to an item, in the order of the calls. -/
def attached {α : Type} (calls : List (α × Nat × Nat)) (item : Nat) : List α :=
  (calls.filter fun c => c.2.1 == item).map Prod.fst

/-- The associations of an item. -/
def assocsOf (l : List Entry) (item : Nat) : List Assoc :=
  match lastEntry item l with
  | some e => e.assocs
  | none => []

theorem lastEntry_item {item : Nat} {l : List Entry} {e : Entry} (h : lastEntry item l = some e) : e.item = item := by
  induction l with
  | nil => cases h
  | cons a l ih =>
    unfold lastEntry at h
    cases hl : lastEntry item l with
    | some f => rw [hl] at h; cases h; exact ih hl
    | none =>
      rw [hl] at h
      simp only at h
      split at h
      · cases h; assumption
      · cases h

theorem lastEntry_snoc (item : Nat) (l : List Entry) (e : Entry) :
    lastEntry item (l ++ [e]) = if e.item = item then some e else lastEntry item l := by
  induction l with
  | nil => simp [lastEntry]
  | cons a l ih =>
    simp only [List.cons_append, lastEntry, ih]
    by_cases h : e.item = item
    · simp [h]
    · simp [h]

theorem lastEntry_update (item : Nat) (a : Assoc) (l : List Entry) (i : Nat) :
    lastEntry i (updateLast item a l) =
      if i = item then (lastEntry item l).map (fun e => { e with assocs := e.assocs ++ [a] }) else lastEntry i l := by
  induction l with
  | nil => simp [updateLast, lastEntry]
  | cons e l ih =>
    unfold updateLast
    cases hl : lastEntry item l with
    | some f =>
      simp only [Option.isSome_some, if_true]
      simp only [lastEntry, ih, hl]
      by_cases hi : i = item
      · simp [hi]
      · simp [hi]
    | none =>
      simp only [Option.isSome_none, Bool.false_eq_true, if_false]
      by_cases he : e.item = item
      · rw [if_pos he]
        simp only [lastEntry, hl, he]
        by_cases hi : i = item
        · subst hi; simp [hl, he]
        · have : ¬ item = i := fun h => hi h.symm
          simp [hi, this]
      · rw [if_neg he]
        simp only [lastEntry, hl, he, if_false]
        by_cases hi : i = item
        · subst hi; simp [hl, he]
        · simp [hi]

theorem assocsOf_add {α : Type} (b : Iprp α) (p : α) (item es i : Nat) :
    assocsOf (addProperty b p item es).assoc.entries i =
      assocsOf b.assoc.entries i ++ if i = item then [⟨es, w16(b.props.length + 1)⟩] else [] := by
  unfold addProperty assocsOf
  simp only
  cases hl : lastEntry item b.assoc.entries with
  | some e =>
    simp only [Option.isSome_some, if_true, lastEntry_update]
    by_cases hi : i = item
    · subst hi; simp [hl]
    · simp [hi]
  | none =>
    simp only [Option.isSome_none, Bool.false_eq_true, if_false, lastEntry_snoc]
    by_cases hi : i = item
    · subst hi; simp [hl]
    · have : ¬ item = i := fun h => hi h.symm
      simp [hi, this]

theorem lookup_append {α : Type} (props : List α) (l m : List Assoc) : lookup props (l ++ m) =
    (lookup props l).bind fun x => (lookup props m).bind fun y => .ok (x ++ y) := by
  induction l with
  | nil =>
    simp only [List.nil_append, lookup, Res.bind]
    cases lookup props m <;> rfl
  | cons a l ih =>
    simp only [List.cons_append, lookup]
    cases props[pred32 a.index]? with
    | none => rfl
    | some p =>
      simp only [ih]
      cases lookup props l with
      | ok x =>
        simp only [Res.bind]
        cases lookup props m <;> rfl
      | err e => rfl
      | ub => rfl

theorem lookup_more {α : Type} (props : List α) (q : List α) (l : List Assoc) {r : List α}
    (h : lookup props l = .ok r) : lookup (props ++ q) l = .ok r := by
  induction l generalizing r with
  | nil => exact h
  | cons a l ih =>
    unfold lookup at h ⊢
    cases hp : props[pred32 a.index]? with
    | none => rw [hp] at h; cases h
    | some p =>
      rw [hp] at h
      have hlt := (List.getElem?_eq_some_iff.1 hp).1
      rw [List.getElem?_append_left hlt, hp]
      simp only at h ⊢
      cases hl : lookup props l with
      | ok x => rw [hl] at h; rw [ih hl]; exact h
      | err e => rw [hl] at h; cases h
      | ub => rw [hl] at h; cases h

/-- After fewer than 65536 calls each item has exactly the properties that were attached to it, in
order. -/
theorem c51_properties {α : Type} (calls : List (α × Nat × Nat)) (hn : calls.length < 2 ^ 16) (item : Nat) :
    properties (added calls) item = .ok (attached calls item) := by
  suffices H : ∀ (rev : List (α × Nat × Nat)), rev.length < 2 ^ 16 → (added rev.reverse).props.length = rev.length ∧
      lookup (added rev.reverse).props (assocsOf (added rev.reverse).assoc.entries item) =
        .ok (attached rev.reverse item) by
    have := (H calls.reverse (by simpa using hn)).2
    rw [List.reverse_reverse] at this
    unfold properties
    unfold assocsOf at this
    cases hl : lastEntry item (added calls).assoc.entries with
    | some e => rw [hl] at this; exact this
    | none => rw [hl] at this; exact this
  intro rev
  induction rev with
  | nil => intro _; exact ⟨rfl, rfl⟩
  | cons c rev ih =>
    intro hlen
    simp only [List.length_cons] at hlen
    obtain ⟨h1, h2⟩ := ih (by omega)
    have ha : added (c :: rev).reverse = addProperty (added rev.reverse) c.1 c.2.1 c.2.2 := by
      simp [added, List.foldl_append]
    have hat : attached (c :: rev).reverse item = attached rev.reverse item ++ if item = c.2.1 then [c.1] else [] := by
      simp only [attached, List.reverse_cons, List.filter_append, List.map_append]
      congr 1
      by_cases h : item = c.2.1
      · simp [h]
      · have : ¬ c.2.1 = item := fun x => h x.symm
        simp [h, this]
    have hp : (addProperty (added rev.reverse) c.1 c.2.1 c.2.2).props = (added rev.reverse).props ++ [c.1] := rfl
    rw [ha, hat]
    refine ⟨by rw [hp]; simp [h1], ?_⟩
    rw [assocsOf_add, lookup_append, hp, lookup_more _ _ _ h2]
    simp only [Res.bind]
    by_cases h : item = c.2.1
    · rw [if_pos h, if_pos h]
      have hi : pred32 w16((added rev.reverse).props.length + 1) = rev.length := by
        rw [h1, Nat.mod_eq_of_lt (by omega)]
        unfold pred32
        simp
      simp only [lookup, hi]
      rw [List.getElem?_append_right (by omega), h1]
      simp [Res.bind]
    · rw [if_neg h, if_neg h]
      simp [lookup]

/-! ## Cases that meet the hypotheses -/

def sample : Box := ⟨1, 0, [⟨70000, [⟨1, 3⟩, ⟨0, 127⟩]⟩, ⟨5, []⟩]⟩
def sampleWide : Box := ⟨0, 1, [⟨7, [⟨1, 3⟩, ⟨0, 300⟩]⟩]⟩

theorem sample_fits : Fits sample := ⟨by decide, by decide, by decide, by decide, by decide, by decide, by decide⟩
theorem sampleWide_fits : Fits sampleWide := ⟨by decide, by decide, by decide, by decide, by decide, by decide, by decide⟩

example : ¬ Wide sample ∧ Wide sampleWide ∧ (∃ e ∈ sampleWide.entries, ∃ a ∈ e.assocs, a.essential = 1) := by decide

example : (runW (size sampleWide) (serialize sampleWide)).bind (fun bs => (parseAtom parse bs).bind fun r => .ok r.1.entries) =
    .ok [⟨7, [⟨0, 32771⟩, ⟨0, 300⟩]⟩] := by decide

example : properties (added [("a", 1, 0), ("b", 2, 1), ("c", 1, 0)]) 1 = .ok ["a", "c"] := by decide

end Verif.Ipma
