import Verif.Model.Tgrp
import Verif.Lemmas.Entries

/-!
# C77: a track is in the groups it was put in

Full property: for each type of group, a track is in the group that was set last, this survives writing and
parsing, and group boxes with more in them than the number of the group survive too. The last part does not
hold (`c77_extension_lost`, `c77_stereo_lost`), nor does the skipping of free space (`c77_free_space`).
-/

namespace Verif.Tgrp

open Verif.Ent (parseAtom_pad GoodType)

/-! ## Specification -/

/-- The group number given last for `type` in the calls `(id, type)` of `MP4AddTrackGroup`. -/
def lastGiven (type : Nat) (calls : List (Nat × Nat)) : Option Nat :=
  ((calls.filter fun c => c.2 == type).map Prod.fst).getLast?

/-- The groups of a new track after the calls. -/
def run (calls : List (Nat × Nat)) : List Grp := calls.foldl (fun l c => add l c.1 c.2) []

/-- A group box: number of the group, and what a derived box adds. -/
def layoutGrp (g : Grp) (more : Bytes) : Bytes := fullBox g.type g.version g.flags (be 4 g.id ++ more)

/-- The track group box. -/
def layout (l : List (Grp × Bytes)) : Bytes := box (fcc 't' 'r' 'g' 'r') (l.flatMap fun p => layoutGrp p.1 p.2)

/-- A group that can be in a file. Free space and extended types are no groups. -/
def GrpOk (g : Grp) : Prop :=
  g.type ≠ 0 ∧ g.type < 2 ^ 32 ∧ g.version < 2 ^ 8 ∧ g.flags < 2 ^ 24 ∧ g.id < 2 ^ 32 ∧
  g.type ≠ fcc 'u' 'u' 'i' 'd' ∧ g.type ≠ fcc 'f' 'r' 'e' 'e' ∧ g.type ≠ fcc 's' 'k' 'i' 'p'

instance (g : Grp) : Decidable (GrpOk g) := by unfold GrpOk; infer_instance

/-! ## Adding and asking -/

theorem find_setId (type id : Nat) (l : List Grp) (t : Nat) : find (setId type id l) t =
    if t = type then (find l t).map (fun g => { g with id := id }) else find l t := by
  unfold find
  induction l with
  | nil => split <;> rfl
  | cons a l ih =>
    unfold setId
    by_cases e : a.type = type
    · rw [if_pos e]
      by_cases h : t = type
      · subst h
        simp [e]
      · have : (a.type == t) = false := by rw [e]; simpa using fun h' => h h'.symm
        simp [this, h]
    · rw [if_neg e]
      simp only [List.find?_cons]
      by_cases h : a.type = t
      · have : ¬ (t = type) := fun h' => e (h.trans h')
        simp [h, this]
      · have : (a.type == t) = false := by simpa using h
        simp only [this]
        exact ih

theorem find_add (l : List Grp) (id type t : Nat) :
    (find (add l id type) t).map Grp.id = if t = type then some id else (find l t).map Grp.id := by
  unfold add
  cases h : find l type with
  | none =>
    simp only
    unfold find at h ⊢
    rw [List.find?_append]
    by_cases e : t = type
    · subst e; simp [h]
    · have : (type == t) = false := by simpa using fun h' => e h'.symm
      simp [this, e]
  | some g =>
    simp only [find_setId]
    by_cases e : t = type
    · subst e; simp [h]
    · simp [e]

theorem find_run (calls : List (Nat × Nat)) (t : Nat) : ∀ l,
    (find (calls.foldl (fun l c => add l c.1 c.2) l) t).map Grp.id =
      match lastGiven t calls with
      | some id => some id
      | none => (find l t).map Grp.id := by
  induction calls with
  | nil => intro l; rfl
  | cons c cs ih =>
    intro l
    rw [List.foldl_cons, ih, find_add]
    unfold lastGiven
    by_cases e : c.2 = t
    · rw [List.filter_cons_of_pos (by simpa using e), List.map_cons, List.getLast?_cons]
      rw [if_pos e.symm]
      cases ((cs.filter fun c => c.2 == t).map Prod.fst).getLast? <;> rfl
    · rw [List.filter_cons_of_neg (by simpa using e), if_neg (fun h => e h.symm)]

/-- After any calls, a track is in the group of each type that was given last, and in no group of a
type that was never given. -/
theorem c77_history (calls : List (Nat × Nat)) (type : Nat) (ht : type ≠ 0) :
    get (run calls) type = match lastGiven type calls with
      | some id => .ok id
      | none => .err .badParam := by
  have h := find_run calls type []
  unfold get run
  rw [if_neg ht]
  cases hl : lastGiven type calls with
  | some id =>
    rw [hl] at h
    obtain ⟨g, hg, rfl⟩ := Option.map_eq_some_iff.1 h
    rw [hg]
  | none =>
    rw [hl] at h
    cases hf : find (calls.foldl (fun l c => add l c.1 c.2) []) type with
    | none => rfl
    | some g => rw [hf] at h; cases h

theorem setId_types (type id : Nat) (l : List Grp) : (setId type id l).map Grp.type = l.map Grp.type := by
  induction l with
  | nil => rfl
  | cons a l ih =>
    unfold setId
    split
    · simp
    · simp [ih]

theorem run_nodup (calls : List (Nat × Nat)) : ∀ l, (l.map Grp.type).Nodup →
    ((calls.foldl (fun l c => add l c.1 c.2) l).map Grp.type).Nodup := by
  induction calls with
  | nil => intro l h; exact h
  | cons c cs ih =>
    intro l h
    refine ih _ ?_
    show ((add l c.1 c.2).map Grp.type).Nodup
    unfold add
    cases hf : find l c.2 with
    | some g => simp only; rw [setId_types]; exact h
    | none =>
      simp only [List.map_append, List.map_cons, List.map_nil]
      refine List.nodup_append.2 ⟨h, by simp, ?_⟩
      intro a ha b hb
      simp only [List.mem_singleton] at hb
      subst hb
      obtain ⟨g, hg, rfl⟩ := List.mem_map.1 ha
      have := List.find?_eq_none.1 hf g hg
      simpa using this

/-- A track is in at most one group of each type: a second one takes the place of the first. -/
theorem c77_one_of_a_type (calls : List (Nat × Nat)) : ((run calls).map Grp.type).Nodup :=
  run_nodup calls [] List.nodup_nil

/-- The type 0 is accepted, cannot be asked for, and cannot be written (an assertion fails). -/
theorem c77_no_type (id : Nat) : add [] id 0 = [⟨0, 0, 0, id⟩] ∧ get (add [] id 0) 0 = .err .badParam ∧
    ∀ size, runW size (putGrp ⟨0, 0, 0, id⟩) = .ub := ⟨rfl, rfl, fun _ => rfl⟩

/-! ## Writing and parsing -/

theorem layoutGrp_length (g : Grp) (more : Bytes) : (layoutGrp g more).length = 16 + more.length := by
  simp only [layoutGrp, fullBox, box, List.length_append, be_length]; omega

theorem run_grp {g : Grp} (h : GrpOk g) : runW grpSize (putGrp g) = .ok (layoutGrp g []) := by
  refine EmitsFull.runW ?_ (by rw [layoutGrp_length]; rfl) (by decide)
  unfold putGrp
  rw [if_neg h.1]
  have := (emits_serFull grpSize g.type g.version g.flags).then (Emits.thenAssert (emits_put32 g.id))
  simpa [layoutGrp, fullBox, box, grpSize] using this

theorem parses_grp {g : Grp} {more : Bytes} (h : GrpOk g) (hs : (layoutGrp g more).length < 2 ^ 32) :
    Parses (getAtom getGrp) (layoutGrp g more) g := by
  intro r k
  have hb : getGrp ⟨8 + ((be 1 g.version ++ be 3 g.flags ++ be 4 g.id) ++ more).length, g.type, [], 0, 8⟩
      ⟨(be 1 g.version ++ be 3 g.flags ++ be 4 g.id) ++ (more ++ r), 8⟩ = .ok (g, ⟨more ++ r, 16⟩) := by
    have : ParsesAt (getGrp ⟨8 + ((be 1 g.version ++ be 3 g.flags ++ be 4 g.id) ++ more).length, g.type, [], 0, 8⟩) 8
        (be 1 g.version ++ be 3 g.flags ++ be 4 g.id) g := by
      unfold getGrp
      refine ((parses_versionFlags h.2.2.1 h.2.2.2.1).at _).bind ?_
      exact ((parses_get32' h.2.2.2.2.1).at _).bind_nil ((parses_pure _).at _)
    have := this (more ++ r)
    simpa using this
  have hl := layoutGrp_length g more
  obtain ⟨hd, h1, h2, h3⟩ := parseAtom_pad (r := r) hb (by
    simp only [List.length_append, be_length]; omega) ⟨Nat.pos_of_ne_zero h.1, h.2.1, h.2.2.2.2.2.1⟩
  have e : layoutGrp g more = box g.type ((be 1 g.version ++ be 3 g.flags ++ be 4 g.id) ++ more) := by
    simp only [layoutGrp, fullBox, List.append_assoc]
  unfold getAtom
  simp only [e]
  rw [h3]
  simp only [h2, box, List.length_append, be_length]

theorem mem_layout_le {l : List (Grp × Bytes)} {p : Grp × Bytes} (h : p ∈ l) :
    (layoutGrp p.1 p.2).length ≤ (l.flatMap fun p => layoutGrp p.1 p.2).length := by
  induction l with
  | nil => simp at h
  | cons a l ih =>
    simp only [List.flatMap_cons, List.length_append]
    rcases List.mem_cons.1 h with rfl | h
    · omega
    · have := ih h; omega

theorem parsesAt_loop {sz : Nat} (l : List (Grp × Bytes)) : ∀ (acc : List Grp) (fuel k : Nat), l.length < fuel →
    (∀ p ∈ l, GrpOk p.1) → k + (l.flatMap fun p => layoutGrp p.1 p.2).length = sz → sz < 2 ^ 32 →
    ParsesAt (loop sz fuel acc) k (l.flatMap fun p => layoutGrp p.1 p.2) (acc ++ l.map Prod.fst) := by
  induction l with
  | nil =>
    intro acc fuel k hf _ hk _
    obtain ⟨f, rfl⟩ : ∃ f, fuel = f + 1 := ⟨fuel - 1, by simp at hf; omega⟩
    unfold loop
    refine parsesAt_bytesRead ?_
    rw [if_neg (by simp at hk; omega)]
    simpa using (parses_pure acc).at k
  | cons p l ih =>
    intro acc fuel k hf h hk hsz
    obtain ⟨f, rfl⟩ : ∃ f, fuel = f + 1 := ⟨fuel - 1, by simp at hf; omega⟩
    simp only [List.flatMap_cons, List.length_append] at hk ⊢
    have hp := h p (by simp)
    have hl := layoutGrp_length p.1 p.2
    have hfs : ¬ (p.1.type = typeFree ∨ p.1.type = typeSkip) := by
      have e1 : typeFree = fcc 'f' 'r' 'e' 'e' := by decide
      have e2 : typeSkip = fcc 's' 'k' 'i' 'p' := by decide
      rw [e1, e2]
      simp [hp.2.2.2.2.2.2.1, hp.2.2.2.2.2.2.2]
    unfold loop
    refine parsesAt_bytesRead ?_
    rw [if_pos (by omega)]
    refine ParsesAt.bind ((parses_grp hp (by omega)).at _) ?_
    rw [if_neg hfs]
    have := ih (acc ++ [p.1]) f (k + (layoutGrp p.1 p.2).length) (by simp at hf; omega)
      (fun x hx => h x (by simp [hx])) (by omega) hsz
    simpa using this

theorem reads {l : List (Grp × Bytes)} (h : ∀ p ∈ l, GrpOk p.1) (hs : (layout l).length < 2 ^ 32) (rest : Bytes) :
    ∃ hd, parseAtom parse (layout l ++ rest) = .ok (l.map Prod.fst, hd, rest) := by
  have hlen : (layout l).length = 8 + (l.flatMap fun p => layoutGrp p.1 p.2).length := by
    simp only [layout, box, List.length_append, be_length]
  rw [hlen] at hs
  refine ⟨⟨8 + (l.flatMap fun p => layoutGrp p.1 p.2).length, typeTrgr, [], 0, 8⟩, ?_⟩
  have ht : fcc 't' 'r' 'g' 'r' = typeTrgr := by decide
  have hb : ParsesAt (parse ⟨8 + (l.flatMap fun p => layoutGrp p.1 p.2).length, typeTrgr, [], 0, 8⟩) 8
      (l.flatMap fun p => layoutGrp p.1 p.2) (l.map Prod.fst) := ?_
  · have := parseAtom_small hb rfl hs (by decide) (by decide) rest
    unfold layout box
    rw [ht]
    exact this
  unfold parse
  intro r
  rw [P.bind_apply]
  simp only [P.available]
  rw [P.bind_apply]
  have hf : l.length < ((l.flatMap fun p => layoutGrp p.1 p.2) ++ r).length + 1 := by
    have : l.length ≤ (l.flatMap fun p => layoutGrp p.1 p.2).length := by
      clear hs hlen h
      induction l with
      | nil => simp
      | cons a l ih =>
        simp only [List.flatMap_cons, List.length_append, List.length_cons, layoutGrp_length]
        omega
    rw [List.length_append]; omega
  rw [parsesAt_loop l [] _ 8 hf h rfl hs r]
  simp only [List.nil_append, P.bind_apply, P.bytesRead, ne_eq, not_true, if_false, P.pure_apply]

/-- The groups of a track are written and read back. -/
theorem c77_round_trip_partial (l : List Grp) (h : ∀ g ∈ l, GrpOk g) (hs : (layout (l.map fun g => (g, []))).length < 2 ^ 32) :
    BoxRoundTrip (size l) (serialize l) parse l (layout (l.map fun g => (g, []))) := by
  have hlen : (layout (l.map fun g => (g, []))).length = 8 + (l.flatMap fun g => layoutGrp g []).length := by
    simp only [layout, box, List.length_append, be_length, List.flatMap_map]
  have hc : (l.flatMap fun g => layoutGrp g []).length = 16 * l.length :=
    flatMap_length_const l fun g _ => layoutGrp_length g []
  have hsum : (l.map fun _ => grpSize).sum = 16 * l.length := by
    clear h hs hlen hc
    induction l with
    | nil => rfl
    | cons a l ih =>
      simp only [List.map_cons, List.sum_cons, ih, List.length_cons]
      show 16 + _ = _
      omega
  have hsize : size l = 8 + (l.flatMap fun g => layoutGrp g []).length := by
    unfold size; rw [hsum]; omega
  refine ⟨?_, by rw [hlen, hsize], ?_⟩
  · refine EmitsFull.runW ?_ (by rw [hlen, hsize]) (by omega)
    have := (emits_serBase (size l) typeTrgr).then (Emits.thenAssert (Emits.each (g := fun g => layoutGrp g []) l fun g hg =>
      emits_nested (run_grp (h g hg)) (by rw [layoutGrp_length]; rfl)))
    have ht : fcc 't' 'r' 'g' 'r' = typeTrgr := by decide
    unfold serialize
    rw [hsize] at this ⊢
    simpa [layout, box, List.flatMap_map, ht] using this
  · intro rest
    have := reads (l := l.map fun g => (g, [])) (by simpa using h) hs rest
    simpa [Function.comp_def] using this

/-- What was asked for comes back from the file. -/
theorem c77_survives (calls : List (Nat × Nat)) (h : ∀ g ∈ run calls, GrpOk g)
    (hs : (layout ((run calls).map fun g => (g, []))).length < 2 ^ 32) (rest : Bytes) :
    ∃ bytes l hd, runW (size (run calls)) (serialize (run calls)) = .ok bytes ∧
      parseAtom parse (bytes ++ rest) = .ok (l, hd, rest) ∧
      ∀ type, type ≠ 0 → get l type = match lastGiven type calls with
        | some id => .ok id
        | none => .err .badParam := by
  obtain ⟨h1, _, h3⟩ := c77_round_trip_partial _ h hs
  obtain ⟨hd, h4⟩ := h3 rest
  exact ⟨_, _, hd, h1, h4, fun type ht => c77_history calls type ht⟩

/-! ## What does not survive -/

/-- Whatever a file has in a group box behind the number is not kept: the box is read, and written without it. -/
theorem c77_extension_lost {l : List (Grp × Bytes)} (h : ∀ p ∈ l, GrpOk p.1) (hs : (layout l).length < 2 ^ 32) :
    ∃ hd, parseAtom parse (layout l) = .ok (l.map Prod.fst, hd, []) ∧
      runW (size (l.map Prod.fst)) (serialize (l.map Prod.fst)) = .ok (layout (l.map fun p => (p.1, []))) := by
  obtain ⟨hd, h1⟩ := reads h hs []
  rw [List.append_nil] at h1
  refine ⟨hd, h1, ?_⟩
  have hle : (layout (l.map fun p => (p.1, []))).length ≤ (layout l).length := by
    simp only [layout, box, List.length_append, be_length, List.flatMap_map]
    clear h hs h1
    induction l with
    | nil => simp
    | cons a l ih =>
      simp only [List.flatMap_cons, List.length_append, layoutGrp_length, List.length_nil] at ih ⊢
      omega
  have := (c77_round_trip_partial (l.map Prod.fst) (by
    intro g hg
    obtain ⟨p, hp, rfl⟩ := List.mem_map.1 hg
    exact h p hp) (by
    simp only [List.map_map, Function.comp_def]; omega)).write
  simpa only [List.map_map, Function.comp_def] using this

/-- The stereo video group: which of the two tracks is the left view is lost. -/
theorem c77_stereo_lost (id : Nat) (hid : id < 2 ^ 32) : ∃ hd,
    parseAtom parse (layout [(⟨typeSter, 0, 0, id⟩, be 4 (2 ^ 31))]) = .ok ([⟨typeSter, 0, 0, id⟩], hd, []) ∧
    runW (size [⟨typeSter, 0, 0, id⟩]) (serialize [⟨typeSter, 0, 0, id⟩]) = .ok (layout [(⟨typeSter, 0, 0, id⟩, [])]) := by
  have hok : GrpOk ⟨typeSter, 0, 0, id⟩ := by
    exact ⟨(by decide : typeSter ≠ 0), (by decide : typeSter < 2 ^ 32), (by decide : 0 < 2 ^ 8), (by decide : 0 < 2 ^ 24), hid,
      (by decide : typeSter ≠ fcc 'u' 'u' 'i' 'd'), (by decide : typeSter ≠ fcc 'f' 'r' 'e' 'e'),
      (by decide : typeSter ≠ fcc 's' 'k' 'i' 'p')⟩
  obtain ⟨hd, h1, h2⟩ := c77_extension_lost (l := [(⟨typeSter, 0, 0, id⟩, be 4 (2 ^ 31))]) (by simpa using hok) (by
    simp only [layout, box, List.length_append, be_length, List.flatMap_cons, List.flatMap_nil, layoutGrp_length, List.length_nil]
    decide)
  exact ⟨hd, h1, h2⟩

/-- The parser of the stereo video group box itself, which is never used inside a track group box, keeps the flag;
writing it shifts a 1 out of an `int`. -/
theorem c77_stereo_partial (wraps : Bool) (version flags : Nat) (x : Ster) (hv : version < 256) (hf : flags < 2 ^ 24)
    (hid : x.id < 2 ^ 32) (hl : x.left < 2) (hw : x.left = 0 ∨ wraps = true) :
    BoxRoundTrip 20 (putSter wraps version flags x) getSter ((version, flags), x)
      (fullBox (fcc 's' 't' 'e' 'r') version flags (be 4 x.id ++ be 4 (x.left * 2 ^ 31))) := by
  have ht : typeSter = fcc 's' 't' 'e' 'r' := by decide
  have e : w32(x.left * 2 ^ 31) = x.left * 2 ^ 31 := by omega
  rw [← ht]
  refine BoxRoundTrip.ofFull (type := typeSter) ?_ ?_ (by simp only [List.length_append, be_length]) (by decide)
    (by decide) (by decide)
  · rw [if_pos hw, e]
    emits
  · unfold getSter
    refine ((parses_versionFlags hv hf).at _).bind ?_
    refine ((parses_get32' hid).at _).bind ?_
    refine ((parses_get32' (by omega)).at _).bind_nil ?_
    refine parsesAt_bytesRead ?_
    rw [if_neg (by simp only [List.length_append, be_length]; omega)]
    have e2 : x.left * 2 ^ 31 / 2 ^ 31 = x.left := by omega
    rw [e2]
    exact (parses_pure _).at _

theorem c77_stereo_shift (version flags id left : Nat) (hl : left ≠ 0) :
    runW 20 (putSter false version flags ⟨id, left⟩) = .ub := by
  have h : ¬ (left = 0 ∨ false = true) := by simp [hl]
  have e := (emits_serFull 20 typeSter version flags).seq (emits_put32 id)
  have : putSter false version flags ⟨id, left⟩ = serFull w32(12 + 8) typeSter version flags ;; put32 id ;; W.bad := by
    unfold putSter
    simp only [if_neg h]
  rw [this]
  rfl

theorem parsesAt_past {sz : Nat} (last : Grp × Bytes) (hl : GrpOk last.1) (l : List (Grp × Bytes)) :
    ∀ (acc : List Grp) (fuel k : Nat), l.length + 1 < fuel → (∀ p ∈ l, GrpOk p.1) →
    k + (l.flatMap fun p => layoutGrp p.1 p.2).length < sz → sz < 2 ^ 32 →
    (l.flatMap fun p => layoutGrp p.1 p.2).length + (layoutGrp last.1 last.2).length < 2 ^ 32 →
    sz < k + (l.flatMap fun p => layoutGrp p.1 p.2).length + (layoutGrp last.1 last.2).length →
    ∃ gs, ParsesAt (loop sz fuel acc) k ((l.flatMap fun p => layoutGrp p.1 p.2) ++ layoutGrp last.1 last.2) gs := by
  have hfs : ∀ p : Grp × Bytes, GrpOk p.1 → ¬ (p.1.type = typeFree ∨ p.1.type = typeSkip) := by
    intro p hp
    have e1 : typeFree = fcc 'f' 'r' 'e' 'e' := by decide
    have e2 : typeSkip = fcc 's' 'k' 'i' 'p' := by decide
    rw [e1, e2]
    simp [hp.2.2.2.2.2.2.1, hp.2.2.2.2.2.2.2]
  induction l with
  | nil =>
    intro acc fuel k hf _ hk hsz hlen hend
    obtain ⟨f, rfl⟩ : ∃ f, fuel = f + 1 + 1 := ⟨fuel - 2, by simp at hf; omega⟩
    refine ⟨acc ++ [last.1], ?_⟩
    simp only [List.flatMap_nil, List.length_nil, Nat.add_zero, List.nil_append] at hk hend ⊢
    unfold loop
    refine parsesAt_bytesRead ?_
    rw [if_pos hk]
    refine ParsesAt.bind_nil ((parses_grp hl (by omega)).at _) ?_
    rw [if_neg (hfs _ hl)]
    unfold loop
    refine parsesAt_bytesRead ?_
    rw [if_neg (by omega)]
    exact (parses_pure _).at _
  | cons p l ih =>
    intro acc fuel k hf h hk hsz hlen hend
    obtain ⟨f, rfl⟩ : ∃ f, fuel = f + 1 := ⟨fuel - 1, by simp at hf; omega⟩
    simp only [List.flatMap_cons, List.length_append] at hk hlen hend ⊢
    have hp := h p (by simp)
    obtain ⟨gs, hg⟩ := ih (acc ++ [p.1]) f (k + (layoutGrp p.1 p.2).length) (by simp at hf; omega)
      (fun x hx => h x (by simp [hx])) (by omega) hsz (by omega) (by omega)
    refine ⟨gs, ?_⟩
    unfold loop
    refine parsesAt_bytesRead ?_
    rw [if_pos (by omega), List.append_assoc]
    refine ParsesAt.bind ((parses_grp hp (by omega)).at _) ?_
    rw [if_neg (hfs _ hp)]
    exact hg

/-- A track group box that ends inside its last group (`sz` is the size it has in the file) is refused, whatever
follows. -/
theorem c77_wrong_end {l : List (Grp × Bytes)} {last : Grp × Bytes} (h : ∀ p ∈ l, GrpOk p.1) (hl : GrpOk last.1) {sz : Nat}
    (h1 : (layout l).length < sz) (h2 : sz < (layout (l ++ [last])).length) (h3 : (layout (l ++ [last])).length < 2 ^ 32)
    (rest : Bytes) :
    parseAtom parse (be 4 sz ++ be 4 (fcc 't' 'r' 'g' 'r') ++
      ((l.flatMap fun p => layoutGrp p.1 p.2) ++ layoutGrp last.1 last.2 ++ rest)) = .err .badData := by
  simp only [layout, box, List.length_append, be_length, List.flatMap_append, List.flatMap_cons, List.flatMap_nil,
    List.append_nil] at h1 h2 h3
  have ht : fcc 't' 'r' 'g' 'r' = typeTrgr := by decide
  rw [ht]
  unfold parseAtom
  rw [parseHeader_small (by omega) (by omega) (by decide) (by decide) _ (by simp only [List.length_append]; omega)]
  have hc : l.length ≤ (l.flatMap fun p => layoutGrp p.1 p.2).length := by
    clear h1 h2 h3 h
    induction l with
    | nil => simp
    | cons a l ih =>
      simp only [List.flatMap_cons, List.length_append, List.length_cons, layoutGrp_length]
      omega
  have hll := layoutGrp_length last.1 last.2
  obtain ⟨gs, hg⟩ := parsesAt_past (sz := sz) last hl l []
    (((l.flatMap fun p => layoutGrp p.1 p.2) ++ layoutGrp last.1 last.2 ++ rest).length + 1) 8 (by
      simp only [List.length_append]; omega) h (by omega) (by omega) (by omega) (by omega)
  have hp : parse ⟨sz, typeTrgr, [], 0, 8⟩
      ⟨(l.flatMap fun p => layoutGrp p.1 p.2) ++ layoutGrp last.1 last.2 ++ rest, 8⟩ = .err .badData := by
    unfold parse
    rw [P.bind_apply]
    simp only [P.available]
    rw [P.bind_apply, hg rest]
    simp only [P.bind_apply, P.bytesRead, List.length_append]
    rw [if_pos (by omega)]
    rfl
  simp only [hp]

/-- Two groups, the box ending four bytes too early. -/
example : parseAtom parse (be 4 36 ++ be 4 (fcc 't' 'r' 'g' 'r') ++
    ((([(⟨typeMsrc, 0, 0, 5⟩, [])] : List (Grp × Bytes)).flatMap fun p => layoutGrp p.1 p.2) ++
      layoutGrp ⟨typeMsrc, 0, 0, 6⟩ [] ++ be 4 0)) = .err .badData :=
  c77_wrong_end (l := [(⟨typeMsrc, 0, 0, 5⟩, [])]) (last := (⟨typeMsrc, 0, 0, 6⟩, [])) (by decide) (by decide) (by decide)
    (by decide) (by decide) _

/-- An empty free space box in front of a group is read as a group too, eight bytes too far: the group after it
is not found, and the box after the track group box is taken for part of it. -/
theorem c77_free_space :
    parseAtom parse (box typeTrgr (box typeFree [] ++ layoutGrp ⟨typeMsrc, 0, 0, 5⟩ [])) = .err .ioErr ∧
    parseAtom parse (box typeTrgr (box typeFree [] ++ layoutGrp ⟨typeMsrc, 0, 0, 5⟩ []) ++ box 0x01020304 []) =
      .ok ([⟨5, 0, 8, 0x01020304⟩], ⟨32, typeTrgr, [], 0, 8⟩, []) := by
  refine ⟨?_, ?_⟩ <;> decide +kernel

/-- Storing a sample of an object descriptor stream puts its track in the group 0 of tracks from the same
source, unless it is in one: any two such tracks are then in the same group. -/
theorem c77_descriptor_streams (calls : List (Nat × Nat)) : get (odGroups (run calls)) typeMsrc =
    .ok ((lastGiven typeMsrc calls).getD 0) := by
  have h := find_run calls typeMsrc []
  have hr : calls.foldl (fun l c => add l c.1 c.2) [] = run calls := rfl
  rw [hr] at h
  unfold get odGroups
  rw [if_neg (by decide)]
  cases hf : find (run calls) typeMsrc with
  | some g =>
    rw [hf] at h
    simp only [hf]
    cases hl : lastGiven typeMsrc calls with
    | some id => rw [hl] at h; cases h; rfl
    | none => rw [hl] at h; cases h
  | none =>
    rw [hf] at h
    have e : find (run calls ++ [⟨typeMsrc, 0, 0, 0⟩]) typeMsrc = some ⟨typeMsrc, 0, 0, 0⟩ := by
      unfold find at hf ⊢
      rw [List.find?_append, hf]
      rfl
    simp only [e]
    cases hl : lastGiven typeMsrc calls with
    | some id => rw [hl] at h; cases h
    | none => rfl

/-! ## Cases that meet the hypotheses -/

def someCalls : List (Nat × Nat) := [(7, fcc 'm' 's' 'r' 'c'), (2, fcc 'a' 'l' 't' 'e'), (9, fcc 'm' 's' 'r' 'c')]

example : get (run someCalls) (fcc 'm' 's' 'r' 'c') = .ok 9 ∧ get (run someCalls) (fcc 'a' 'l' 't' 'e') = .ok 2 ∧
    get (run someCalls) (fcc 's' 't' 'e' 'r') = .err .badParam := by decide

example := c77_survives someCalls (by decide) (by decide) [1, 2]
example := c77_stereo_lost 3 (by decide)
example := c77_stereo_partial true 0 0 ⟨3, 1⟩ (by decide) (by decide) (by decide) (by decide) (.inr rfl)

end Verif.Tgrp
