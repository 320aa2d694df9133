import Verif.Model.Subs
import Verif.Lemmas.Auto

/-!
# C41: sub-sample information survives being written and parsed
-/

namespace Verif.Subs

/-- Layout of one sub-sample (ISO/IEC 14496-12, 8.7.7). -/
def subBytes (version : Nat) (s : Sub) : Bytes :=
  (if version = 1 then be 4 s.size else be 2 s.size) ++ (be 1 s.priority ++ (be 1 s.discardable ++ be 4 s.parameters))

def entryBytes (version : Nat) (e : Entry) : Bytes :=
  be 4 e.delta ++ (be 2 e.subs.length ++ e.subs.flatMap (subBytes version))

def layout (b : Box) : Bytes :=
  fullBox (fcc 's' 'u' 'b' 's') b.version b.flags (be 4 b.entries.length ++ b.entries.flatMap (entryBytes b.version))

/-- Values fit their fields; the size of a sub-sample may need the 32-bit form. -/
structure SubFits (s : Sub) : Prop where
  size : s.size < 2 ^ 32
  bytes : s.priority < 2 ^ 8 ∧ s.discardable < 2 ^ 8
  parameters : s.parameters < 2 ^ 32

structure EntryFits (e : Entry) : Prop where
  delta : e.delta < 2 ^ 32
  some : 1 ≤ e.subs.length
  count : e.subs.length < 2 ^ 16
  subs : ∀ s ∈ e.subs, SubFits s

/-- A size that needs 32 bits. -/
def Big (es : List Entry) : Prop := ∃ e ∈ es, ∃ s ∈ e.subs, 2 ^ 16 ≤ s.size

/-! ## Writing and parsing -/

theorem subBytes_length (v : Nat) (s : Sub) : (subBytes v s).length = if v = 1 then 10 else 8 := by
  unfold subBytes
  split <;> simp

theorem entryBytes_length (v : Nat) (e : Entry) :
    (entryBytes v e).length = 6 + e.subs.length * (if v = 1 then 10 else 8) := by
  simp only [entryBytes, List.length_append, be_length]
  rw [flatMap_length_const e.subs fun s _ => subBytes_length v s, Nat.mul_comm]
  omega

theorem entries_length (v : Nat) (es : List Entry) : (es.flatMap (entryBytes v)).length =
    es.length * 6 + (es.map fun e => e.subs.length * (if v = 1 then 10 else 8)).sum := by
  induction es with
  | nil => rfl
  | cons e es ih =>
    simp only [List.flatMap_cons, List.length_append, entryBytes_length, List.map_cons, List.sum_cons,
      List.length_cons, ih]
    omega

theorem emits_sub (v : Nat) (s : Sub) : Emits (putSub v s) (subBytes v s) := by
  unfold putSub subBytes
  refine Emits.seq ?_ ((emits_put8 _).seq ((emits_put8 _).seq (emits_put32 _)))
  split
  · exact emits_put32 _
  · exact emits_put16 _

theorem parses_sub {v : Nat} {s : Sub} (hs : SubFits s) (hv : v = 1 ∨ s.size < 2 ^ 16) :
    Parses (getSub v) (subBytes v s) s := by
  unfold getSub subBytes
  obtain ⟨h1, ⟨h2, h3⟩, h4⟩ := hs
  by_cases h : v = 1
  · simp only [h, if_true]
    exact (parses_get32' h1).bind ((parses_get8' h2).bind ((parses_get8' h3).bind
      ((parses_get32' h4).bind_nil (parses_pure _))))
  · simp only [h, if_false]
    exact (parses_get16' (by omega)).bind ((parses_get8' h2).bind ((parses_get8' h3).bind
      ((parses_get32' h4).bind_nil (parses_pure _))))

theorem parses_entry {v : Nat} {e : Entry} (he : EntryFits e) (hv : v = 1 ∨ ∀ s ∈ e.subs, s.size < 2 ^ 16) :
    Parses (getEntry v) (entryBytes v e) e := by
  unfold getEntry entryBytes
  refine (parses_get32' he.delta).bind ((parses_get16' he.count).bind ?_)
  rw [if_neg (by have := he.some; omega)]
  refine Parses.bind_nil (a := e.subs) ?_ (parses_pure _)
  exact parses_repeat e.subs (subBytes v) (fun s hs => parses_sub (he.subs s hs) (hv.imp id fun h => h s hs)) rfl

/-- A box with the entries in range, in a version that can hold the sizes. -/
theorem c41_round_trip (b : Box) (hver : b.version < 256) (hfl : b.flags < 2 ^ 24)
    (hsize : (layout b).length < 2 ^ 32) (he : ∀ e ∈ b.entries, EntryFits e)
    (hv : b.version = 1 ∨ ¬ Big b.entries) :
    BoxRoundTrip (size b) (serialize b) parse b (layout b) := by
  have hsz : size b = 12 + (be 4 b.entries.length ++ b.entries.flatMap (entryBytes b.version)).length := by
    have h1 := entries_length b.version b.entries
    simp only [layout, fullBox, box, List.length_append, be_length] at hsize
    unfold size
    simp only [List.length_append, be_length]
    omega
  have hcnt : b.entries.length < 4294967296 := by
    have h1 := entries_length b.version b.entries
    simp only [layout, fullBox, box, List.length_append, be_length] at hsize
    omega
  have hall : ∀ e ∈ b.entries, b.version = 1 ∨ ∀ s ∈ e.subs, s.size < 2 ^ 16 := by
    intro e h
    rcases hv with hv | hv
    · exact .inl hv
    · right
      intro s hs
      by_cases hc : s.size < 2 ^ 16
      · exact hc
      · exact absurd ⟨e, h, s, hs, by omega⟩ hv
  refine BoxRoundTrip.ofFull (type := typeSubs) ?_ ?_ hsz ?_ (by decide) (by decide)
  · refine (emits_put32 _).then (Emits.thenAssert (Emits.each _ fun e _ => ?_))
    exact (emits_put32 _).seq ((emits_put16 _).seq (Emits.each _ fun s _ => emits_sub _ s))
  · apply Parses.at
    unfold parse
    refine (parses_versionFlags hver hfl).bind ((parses_get32' hcnt).bind ?_)
    refine Parses.bind_nil (a := b.entries) ?_ (parses_pure _)
    exact parses_repeat b.entries _ (fun e h => parses_entry (he e h) (hall e h)) rfl
  · simp only [layout, fullBox, box, List.length_append, be_length] at hsize
    rw [hsz]
    simp only [List.length_append, be_length]
    omega

/-! ## Adding -/

theorem zipSubs_columns (l : List Sub) (x : List Nat) :
    zipSubs l.length (l.map Sub.size ++ x) (l.map Sub.priority ++ x) (l.map Sub.discardable ++ x)
      (l.map Sub.parameters ++ x) = .ok l := by
  induction l with
  | nil => simp [zipSubs]
  | cons s l ih =>
    simp only [List.length_cons, List.map_cons, List.cons_append, zipSubs, ih, Res.bind]

/-- Entries added one after the other with `addEntry2`, from handles that hold the columns and
possibly more values after them. -/
def addAll : List (Entry × List Nat) → Box → Res Box
  | [], b => .ok b
  | (e, x) :: l, b =>
    (addEntry2 b e.delta e.subs.length (e.subs.map Sub.size ++ x) (e.subs.map Sub.priority ++ x)
      (e.subs.map Sub.discardable ++ x) (e.subs.map Sub.parameters ++ x)).bind (addAll l)

theorem any_big (l : List Sub) : (l.any fun s => decide (s.size > 0xFFFF)) = true ↔ ∃ s ∈ l, 2 ^ 16 ≤ s.size := by
  simp only [List.any_eq_true, decide_eq_true_eq]
  constructor
  · rintro ⟨s, h1, h2⟩; exact ⟨s, h1, by omega⟩
  · rintro ⟨s, h1, h2⟩; exact ⟨s, h1, by omega⟩

theorem addAll_spec (l : List (Entry × List Nat)) : ∀ b : Box, (b.version = 0 ∨ b.version = 1) →
    ∃ b', addAll l b = .ok b' ∧ b'.entries = b.entries ++ l.map Prod.fst ∧ b'.flags = b.flags ∧
      (b'.version = 0 ∨ b'.version = 1) ∧ (b'.version = 1 ↔ b.version = 1 ∨ Big (l.map Prod.fst)) := by
  induction l with
  | nil =>
    intro b hb
    exact ⟨b, rfl, by simp, rfl, hb, by simp [Big]⟩
  | cons p l ih =>
    intro b hb
    obtain ⟨e, x⟩ := p
    simp only [addAll, addEntry2, zipSubs_columns, Res.bind]
    by_cases hbig : (e.subs.any fun s => decide (s.size > 0xFFFF)) = true
    · obtain ⟨b', h1, h2, h3, h4, h5⟩ := ih ⟨1, b.flags, b.entries ++ [⟨e.delta, e.subs⟩]⟩ (.inr rfl)
      refine ⟨b', by rw [if_pos hbig]; exact h1, by rw [h2]; simp, h3, h4, ?_⟩
      obtain ⟨s, hs, hs2⟩ := (any_big _).1 hbig
      rw [h5]
      constructor
      · intro _; exact .inr ⟨e, by simp, s, hs, hs2⟩
      · intro _; exact .inl rfl
    · obtain ⟨b', h1, h2, h3, h4, h5⟩ := ih ⟨b.version, b.flags, b.entries ++ [⟨e.delta, e.subs⟩]⟩ hb
      refine ⟨b', by rw [if_neg hbig]; exact h1, by rw [h2]; simp, h3, h4, ?_⟩
      rw [h5]
      simp only [List.map_cons]
      constructor
      · rintro (h | ⟨e', he', h⟩)
        · exact .inl h
        · exact .inr ⟨e', by simp [he'], h⟩
      · rintro (h | ⟨e', he', s, hs, hs2⟩)
        · exact .inl h
        · rcases List.mem_cons.1 he' with rfl | he'
          · exact absurd ((any_big _).2 ⟨s, hs, hs2⟩) hbig
          · exact .inr ⟨e', he', s, hs, hs2⟩

/-- Whatever entries are added, in this order, the box holds exactly them; the 32-bit form is chosen
exactly if some size needs it; and the box is read back as it is. -/
theorem c41_added (l : List (Entry × List Nat)) (he : ∀ p ∈ l, EntryFits p.1) :
    ∃ b, addAll l empty = .ok b ∧ b.entries = l.map Prod.fst ∧ (b.version = 1 ↔ Big (l.map Prod.fst)) ∧
      ((layout b).length < 2 ^ 32 → BoxRoundTrip (size b) (serialize b) parse b (layout b)) := by
  obtain ⟨b, h1, h2, h3, h4, h5⟩ := addAll_spec l empty (.inl rfl)
  have h5' : b.version = 1 ↔ Big (l.map Prod.fst) := by rw [h5]; simp [empty]
  have h2' : b.entries = l.map Prod.fst := by simpa [empty] using h2
  refine ⟨b, h1, h2', h5', fun hs => ?_⟩
  refine c41_round_trip b (by omega) (by rw [h3]; decide) hs ?_ ?_
  · intro e h
    rw [h2'] at h
    obtain ⟨p, hp, rfl⟩ := List.mem_map.1 h
    exact he p hp
  · by_cases hb : b.version = 1
    · exact .inl hb
    · right; rw [h2', ← h5']; exact hb

/-- The form without parameters stores 0. -/
theorem c41_add_plain (b : Box) (e : Entry) (h : ∀ s ∈ e.subs, s.parameters = 0) :
    addEntry b e.delta e.subs.length (e.subs.map Sub.size) (e.subs.map Sub.priority) (e.subs.map Sub.discardable) =
    addEntry2 b e.delta e.subs.length (e.subs.map Sub.size) (e.subs.map Sub.priority) (e.subs.map Sub.discardable)
      (e.subs.map Sub.parameters) := by
  unfold addEntry
  congr 1
  symm
  rw [List.eq_replicate_iff]
  simp only [List.length_map, true_and, List.mem_map]
  rintro x ⟨s, hs, rfl⟩
  exact h s hs

/-- Two entries, the second with a size that needs 32 bits. -/
def sample : List (Entry × List Nat) :=
  [(⟨1, [⟨100, 1, 0, 7⟩, ⟨200, 255, 1, 0⟩]⟩, []), (⟨3, [⟨65536, 0, 0, 4294967295⟩]⟩, [5])]

example : (∀ p ∈ sample, EntryFits p.1) ∧ Big (sample.map Prod.fst) ∧
    (addAll sample empty).bind (fun b => (runW (size b) (serialize b)).bind fun bs =>
      (parseAtom parse (bs ++ [9])).bind fun r => .ok (r.1 = b ∧ bs.length = 58 : Bool)) = .ok true := by
  refine ⟨?_, ⟨_, List.mem_cons_of_mem _ (List.mem_cons_self ..), _, List.mem_cons_self .., by decide⟩, ?_⟩
  · intro p hp
    simp only [sample, List.mem_cons, List.not_mem_nil, or_false] at hp
    rcases hp with rfl | rfl
    · refine ⟨by decide, by decide, by decide, ?_⟩
      intro s hs
      simp only [List.mem_cons, List.not_mem_nil, or_false] at hs
      rcases hs with rfl | rfl <;> exact ⟨by decide, by decide, by decide⟩
    · refine ⟨by decide, by decide, by decide, ?_⟩
      intro s hs
      simp only [List.mem_cons, List.not_mem_nil, or_false] at hs
      subst hs
      exact ⟨by decide, by decide, by decide⟩
  · decide +kernel

/-- An entry without sub-samples, which the standard allows, is written but cannot be read. -/
theorem c41_no_subsamples_rejected (delta : Nat) (hd : delta < 2 ^ 32) (rest : Bytes) :
    ∃ bytes, runW (size ⟨0, 0, [⟨delta, []⟩]⟩) (serialize ⟨0, 0, [⟨delta, []⟩]⟩) = .ok bytes ∧
      parseAtom parse (bytes ++ rest) = .err .noMemory := by
  refine ⟨layout ⟨0, 0, [⟨delta, []⟩]⟩, ?_, ?_⟩
  · refine EmitsFull.runW ?_ ?_ (by simp [size])
    · have := (emits_serFull 22 typeSubs 0 0).then ((emits_put32 1).then (Emits.thenAssert
        (Emits.each [(⟨delta, []⟩ : Entry)] (g := entryBytes 0) fun e _ =>
          (emits_put32 _).seq ((emits_put16 _).seq (Emits.each (f := putSub 0) _ fun s _ => emits_sub _ s)))))
      have e : layout ⟨0, 0, [⟨delta, []⟩]⟩ = be 4 22 ++ (be 4 typeSubs ++ (be 1 0 ++ (be 3 0 ++ (be 4 1 ++ (be 4 delta ++ be 2 0))))) := by
        have ht : typeSubs = fcc 's' 'u' 'b' 's' := by decide
        rw [ht]
        simp [layout, fullBox, box, entryBytes]
      rw [e]
      simp [entryBytes] at this
      exact this
    · simp [layout, fullBox, box, entryBytes, size]
  · have e : layout ⟨0, 0, [⟨delta, []⟩]⟩ ++ rest = (be 4 22 ++ be 4 typeSubs) ++ ((be 1 0 ++ be 3 0) ++ (be 4 1 ++
        (be 4 delta ++ (be 2 0 ++ rest)))) := by
      have ht : typeSubs = fcc 's' 'u' 'b' 's' := by decide
      rw [ht]
      simp [layout, fullBox, box, entryBytes]
    rw [e]
    unfold parseAtom
    rw [parseHeader_small (by decide) (by decide) (by decide) (by decide) _ (by simp; omega)]
    simp only [parse, P.bind_apply, parses_versionFlags (v := 0) (f := 0) (by decide) (by decide) _ _,
      parses_get32' (v := 1) (by decide) _ _, P.repeat, getEntry, parses_get32' hd _ _,
      parses_get16' (v := 0) (by decide) _ _, if_true, P.fail]

end Verif.Subs
