import Verif.Model.Tref
import Verif.Lemmas.Auto

/-!
# C39, C50: track references
-/

namespace Verif.Tref

/-! ## Specification -/

/-- The first occurrence of each element, in order. -/
def firsts : List Nat → List Nat
  | [] => []
  | x :: l => x :: (firsts l).filter (fun y => y != x)

/-- The track IDs other than 0 that were given for `type`, in the order of the calls
(`MP4AddTrackReferenceWithID(track, id, type, …)`). -/
def asked (type : Nat) (calls : List (Nat × Nat)) : List Nat :=
  (calls.filter fun c => c.2 == type && c.1 != 0).map Prod.fst

/-- The references after the calls `(id, type)`; a refused call changes nothing. -/
def run : List (Nat × Nat) → List Ref → List Ref
  | [], l => l
  | (id, type) :: cs, l =>
    match add l id type with
    | .ok (l', _) => run cs l'
    | _ => run cs l

/-- The track IDs kept for a type. -/
def ids (l : List Ref) (type : Nat) : List Nat :=
  match find l type with
  | some r => r.ids
  | none => []

def layoutRef (r : Ref) : Bytes := box r.type (r.ids.flatMap (be 4))
def layout (l : List Ref) : Bytes := box (fcc 't' 'r' 'e' 'f') (l.flatMap layoutRef)

/-! ## Lists -/

theorem mem_firsts (x : Nat) (l : List Nat) : x ∈ firsts l ↔ x ∈ l := by
  induction l with
  | nil => simp [firsts]
  | cons y l ih =>
    simp only [firsts, List.mem_cons, List.mem_filter, ih, bne_iff_ne, ne_eq]
    constructor
    · rintro (h | h)
      · exact .inl h
      · exact .inr h.1
    · rintro (h | h)
      · exact .inl h
      · by_cases e : x = y
        · exact .inl e
        · exact .inr ⟨h, e⟩

theorem firsts_nodup (l : List Nat) : (firsts l).Nodup := by
  induction l with
  | nil => simp [firsts]
  | cons y l ih =>
    simp only [firsts, List.nodup_cons, List.mem_filter, bne_self_eq_false, Bool.false_eq_true, and_false,
      not_false_eq_true, true_and]
    exact ih.filter _

theorem firsts_snoc (l : List Nat) (x : Nat) :
    firsts (l ++ [x]) = if x ∈ l then firsts l else firsts l ++ [x] := by
  induction l with
  | nil => simp [firsts]
  | cons y l ih =>
    simp only [List.cons_append, firsts, ih, List.mem_cons]
    by_cases h : x ∈ l
    · simp [h]
    · by_cases e : x = y
      · subst e; simp [h]
      · simp [h, e]

/-! ## One addition -/

theorem find_type {l : List Ref} {type : Nat} {r : Ref} (h : find l type = some r) : r.type = type := by
  have := List.find?_some h
  simpa using this

theorem find_update {l : List Ref} {r r' : Ref} (h : find l r'.type = some r) : ∀ type,
    find (update r' l) type = if type = r'.type then some r' else find l type := by
  induction l with
  | nil => simp [find] at h
  | cons a l ih =>
    intro type
    unfold find at h ih ⊢
    unfold update
    by_cases e : a.type = r'.type
    · rw [if_pos e]
      simp only [List.find?_cons]
      by_cases e2 : r'.type = type
      · subst e2; simp
      · have : ¬ (type = r'.type) := fun h => e2 h.symm
        have e3 : (a.type == type) = false := by rw [e]; simpa using e2
        have e4 : (r'.type == type) = false := by simpa using e2
        simp [e3, e4, this]
    · rw [if_neg e]
      simp only [List.find?_cons] at h ⊢
      by_cases e2 : a.type = type
      · subst e2
        simp [e]
      · have e4 : (a.type == type) = false := by simpa using e2
        have e5 : (a.type == r'.type) = false := by simpa using e
        simp only [e4, e5] at h ⊢
        exact ih h type

/-- The references of one type are changed, those of the others are not. -/
theorem add_spec (l : List Ref) (id type : Nat) (hid : id ≠ 0) : ∃ l' i, add l id type = .ok (l', i) ∧
    i = (ids l' type).length ∧
    (ids l' type = if id ∈ ids l type then ids l type else ids l type ++ [id]) ∧
    (∀ t, t ≠ type → ids l' t = ids l t) ∧ (find l' type ≠ none) ∧
    l'.map Ref.type = if type ∈ l.map Ref.type then l.map Ref.type else l.map Ref.type ++ [type] := by
  unfold add
  rw [if_neg hid]
  have hmem : type ∈ l.map Ref.type ↔ find l type ≠ none := by
    unfold find
    rw [ne_eq, List.find?_eq_none]
    simp
  cases hf : find l type with
  | none =>
    have hids : ids l type = [] := by simp [ids, hf]
    have hfind : ∀ t, find (l ++ [⟨type, [id]⟩]) t = if t = type then some ⟨type, [id]⟩ else find l t := by
      intro t
      by_cases e : t = type
      · subst e
        unfold find at hf ⊢
        simp [List.find?_append, hf]
      · have : (type == t) = false := by simpa using fun h => e h.symm
        simp [find, List.find?_append, this, e]
    have hadd : addTrackID ⟨type, []⟩ id = .ok ⟨type, [id]⟩ := by
      unfold addTrackID
      simp [hid]
    simp only [hadd, Res.bind]
    refine ⟨_, _, rfl, ?_, ?_, ?_, ?_, ?_⟩
    · simp [ids, hfind]
    · simp [hids]
      simp [ids, hfind]
    · intro t ht; simp [ids, hfind, ht]
    · simp [hfind]
    · rw [if_neg (by rw [hmem, hf]; simp)]
      simp
  | some r =>
    have ht := find_type hf
    have hids : ids l type = r.ids := by simp [ids, hf]
    by_cases hc : id ∈ r.ids
    · have hadd : addTrackID r id = .ok r := by
        unfold addTrackID
        rw [if_neg hid, if_pos (by simpa using hc)]
      simp only [hadd, Res.bind]
      have hup := find_update (l := l) (r := r) (r' := r) (by rw [ht]; exact hf)
      rw [ht] at hup
      refine ⟨_, _, rfl, ?_, ?_, ?_, ?_, ?_⟩
      · simp [ids, hup]
      · rw [hids, if_pos hc]; simp [ids, hup]
      · intro t e; simp [ids, hup, e]
      · simp [hup]
      · rw [if_pos (by rw [hmem, hf]; simp)]
        exact update_types r l
    · have hadd : addTrackID r id = .ok { r with ids := r.ids ++ [id] } := by
        unfold addTrackID
        rw [if_neg hid, if_neg (by simpa using hc)]
      simp only [hadd, Res.bind]
      have hup := find_update (l := l) (r := r) (r' := { r with ids := r.ids ++ [id] }) (by simpa [ht] using hf)
      have hup' : ∀ t, find (update { r with ids := r.ids ++ [id] } l) t =
          if t = type then some { r with ids := r.ids ++ [id] } else find l t := by
        intro t; rw [hup t]; simp [ht]
      clear hup
      have hup := hup'
      refine ⟨_, _, rfl, ?_, ?_, ?_, ?_, ?_⟩
      · simp [ids, hup]
      · rw [hids, if_neg hc]; simp [ids, hup]
      · intro t e; simp [ids, hup, e]
      · simp [hup]
      · rw [if_pos (by rw [hmem, hf]; simp)]
        exact update_types _ l
where
  update_types (r' : Ref) (l : List Ref) : (update r' l).map Ref.type = l.map Ref.type := by
    induction l with
    | nil => rfl
    | cons a l ih =>
      unfold update
      split
      · rename_i h; simp [h]
      · simp [ih]

theorem run_snoc (cs : List (Nat × Nat)) (c : Nat × Nat) : ∀ l, run (cs ++ [c]) l = run [c] (run cs l) := by
  induction cs with
  | nil => intro l; rfl
  | cons a cs ih =>
    intro l
    obtain ⟨id, type⟩ := a
    simp only [List.cons_append, run]
    cases add l id type with
    | ok r => exact ih _
    | err e => exact ih _
    | ub => exact ih _

/-- After any calls, the track IDs kept for a type are those given for it other than 0, each once, in
the order in which they were first given. -/
theorem c39_history (calls : List (Nat × Nat)) (type : Nat) :
    ids (run calls []) type = firsts (asked type calls) := by
  suffices H : ∀ (rev : List (Nat × Nat)), ids (run rev.reverse []) type = firsts (asked type rev.reverse) by
    simpa using H calls.reverse
  intro rev
  induction rev with
  | nil => rfl
  | cons c cs ih =>
    rw [List.reverse_cons, run_snoc]
    generalize hl : run cs.reverse [] = l at ih
    generalize hh : cs.reverse = h at ih
    obtain ⟨id, t⟩ := c
    by_cases hid : id = 0
    · subst hid
      have : run [(0, t)] l = l := by simp [run, add]
      rw [this, ih]
      simp [asked]
    · obtain ⟨l', i, h1, h2, h3, h4, h5⟩ := add_spec l id t hid
      have hr : run [(id, t)] l = l' := by simp [run, h1]
      rw [hr]
      by_cases ht : type = t
      · subst ht
        rw [h3, ih]
        have ha : asked type (h ++ [(id, type)]) = asked type h ++ [id] := by simp [asked, hid]
        rw [ha, firsts_snoc]
        simp only [mem_firsts]
      · rw [h4 type ht, ih]
        have ha : asked type (h ++ [(id, t)]) = asked type h := by
          have : ¬ t = type := fun e => ht e.symm
          simp [asked, this]
        rw [ha]

/-- Each once, and never 0. -/
theorem c39_distinct (calls : List (Nat × Nat)) (type : Nat) :
    (ids (run calls []) type).Nodup ∧ 0 ∉ ids (run calls []) type := by
  rw [c39_history]
  refine ⟨firsts_nodup _, ?_⟩
  rw [mem_firsts]
  simp [asked]

/-- What is counted and returned to a caller. -/
theorem c39_get (calls : List (Nat × Nat)) (type : Nat) (ht : type ≠ 0) :
    count (run calls []) type = .ok (firsts (asked type calls)).length ∧
    ∀ i id, (firsts (asked type calls))[i]? = some id → get (run calls []) type (i + 1) = .ok id := by
  have h := c39_history calls type
  have h0 := (c39_distinct calls type).2
  unfold ids at h h0
  unfold count get
  cases hf : find (run calls []) type with
  | none =>
    rw [hf] at h
    simp only at h
    rw [← h]
    exact ⟨by simp [ht], by simp⟩
  | some r =>
    rw [hf] at h h0
    simp only at h h0
    rw [← h]
    refine ⟨by simp [ht], ?_⟩
    intro i id hi
    have hlt : i < r.ids.length := (List.getElem?_eq_some_iff.1 hi).1
    have hmem : id ∈ r.ids := List.mem_of_getElem? hi
    have hne : id ≠ 0 := fun e => h0 (e ▸ hmem)
    have : ¬ (r.ids.length < i + 1) := by omega
    simp [ht, this, hi, hne]

/-! ## Writing and parsing -/

/-- References that can be written: IDs and types fit, sizes fit. The three types that the parser of
the container treats in another way are left out. -/
structure Fits (l : List Ref) : Prop where
  ids : ∀ r ∈ l, ∀ i ∈ r.ids, i < 2 ^ 32
  type : ∀ r ∈ l, r.type < 2 ^ 32
  typed : ∀ r ∈ l, r.type ≠ 0
  special : ∀ r ∈ l, r.type ≠ fcc 'u' 'u' 'i' 'd' ∧ r.type ≠ fcc 'f' 'r' 'e' 'e' ∧ r.type ≠ fcc 's' 'k' 'i' 'p'
  size : (layout l).length < 2 ^ 32

theorem ids_length (l : List Nat) : (l.flatMap (be 4)).length = 4 * l.length :=
  flatMap_length_const l fun s _ => be_length 4 s

theorem layoutRef_length (r : Ref) : (layoutRef r).length = 8 + 4 * r.ids.length := by
  simp only [layoutRef, box, List.length_append, be_length, ids_length]

theorem layout_length (l : List Ref) : (layout l).length = 8 + (l.flatMap layoutRef).length := by
  simp [layout, box]; omega

theorem refSize_eq {r : Ref} (h : (layoutRef r).length < 2 ^ 32) : refSize r = (layoutRef r).length := by
  rw [layoutRef_length] at h ⊢
  unfold refSize
  omega

theorem parsesAt_ref {r : Ref} (hi : ∀ i ∈ r.ids, i < 2 ^ 32) (hs : (layoutRef r).length < 2 ^ 32) :
    ParsesAt (getRef ⟨8 + (r.ids.flatMap (be 4)).length, r.type, [], 0, 8⟩) 8 (r.ids.flatMap (be 4)) r := by
  rw [layoutRef_length] at hs
  unfold getRef
  refine parsesAt_bytesRead ?_
  refine ParsesAt.bind_nil (a := r.ids) ?_ ((parses_pure _).at _)
  exact (parses_repeat r.ids (be 4) (fun s h => parses_get32' (hi s h)) (by rw [ids_length]; simp; omega)).at _

theorem run_ref {r : Ref} (h0 : r.type ≠ 0) (hs : (layoutRef r).length < 2 ^ 32) :
    runW (refSize r) (putRef r) = .ok (layoutRef r) := by
  refine EmitsFull.runW ?_ (refSize_eq hs).symm (by unfold refSize; exact Nat.mod_lt _ (by decide))
  unfold putRef
  rw [if_neg h0]
  have := (emits_serBase (refSize r) r.type).then (Emits.thenAssert (Emits.each r.ids fun i _ => emits_put32 i))
  rw [refSize_eq hs] at this ⊢
  rw [layoutRef_length] at this ⊢
  simp only [layoutRef, box, ids_length]
  simpa using this

/-- One box of references of one type, alone. -/
theorem c39_type_round_trip (r : Ref) (hi : ∀ i ∈ r.ids, i < 2 ^ 32) (h0 : r.type ≠ 0) (ht : r.type < 2 ^ 32)
    (hu : r.type ≠ fcc 'u' 'u' 'i' 'd') (hs : (layoutRef r).length < 2 ^ 32) :
    BoxRoundTrip (refSize r) (putRef r) getRef r (layoutRef r) := by
  refine ⟨run_ref h0 hs, (refSize_eq hs).symm, fun rest => ⟨⟨8 + (r.ids.flatMap (be 4)).length, r.type, [], 0, 8⟩, ?_⟩⟩
  have h8 : (layoutRef r).length = 8 + (r.ids.flatMap (be 4)).length := by simp [layoutRef, box]; omega
  have := parseAtom_small (parsesAt_ref hi hs) rfl (by rw [← h8]; exact hs) ht
    (by have : typeUuid = fcc 'u' 'u' 'i' 'd' := by decide
        rw [this]; exact hu) rest
  simpa [layoutRef, box] using this

theorem mem_layout_le {l : List Ref} {r : Ref} (h : r ∈ l) :
    (layoutRef r).length ≤ (l.flatMap layoutRef).length := by
  induction l with
  | nil => simp at h
  | cons a l ih =>
    simp only [List.flatMap_cons, List.length_append]
    rcases List.mem_cons.1 h with rfl | h
    · omega
    · have := ih h; omega

theorem parsesAt_loop {sz : Nat} (l : List Ref) : ∀ (acc : List Ref) (fuel k : Nat), l.length < fuel →
    (∀ r ∈ l, ∀ i ∈ r.ids, i < 2 ^ 32) → (∀ r ∈ l, r.type < 2 ^ 32) →
    (∀ r ∈ l, r.type ≠ fcc 'u' 'u' 'i' 'd' ∧ r.type ≠ fcc 'f' 'r' 'e' 'e' ∧ r.type ≠ fcc 's' 'k' 'i' 'p') →
    k + (l.flatMap layoutRef).length = sz → sz < 2 ^ 32 →
    ParsesAt (loop sz fuel acc) k (l.flatMap layoutRef) (acc ++ l) := by
  induction l with
  | nil =>
    intro acc fuel k hf _ _ _ hk hsz
    obtain ⟨f, rfl⟩ : ∃ f, fuel = f + 1 := ⟨fuel - 1, by simp at hf; omega⟩
    unfold loop
    refine parsesAt_bytesRead ?_
    rw [if_neg (by simp at hk; omega)]
    simpa using (parses_pure acc).at k
  | cons r l ih =>
    intro acc fuel k hf h1 h2 h3 hk hsz
    obtain ⟨f, rfl⟩ : ∃ f, fuel = f + 1 := ⟨fuel - 1, by simp at hf; omega⟩
    simp only [List.flatMap_cons, List.length_append] at hk ⊢
    have h8 : (layoutRef r).length = 8 + (r.ids.flatMap (be 4)).length := by simp [layoutRef, box]; omega
    have hr := h3 r (by simp)
    have hu : r.type ≠ typeUuid := by
      have : typeUuid = fcc 'u' 'u' 'i' 'd' := by decide
      rw [this]; exact hr.1
    have hfs : ¬ (r.type = typeFree ∨ r.type = typeSkip) := by
      have e1 : typeFree = fcc 'f' 'r' 'e' 'e' := by decide
      have e2 : typeSkip = fcc 's' 'k' 'i' 'p' := by decide
      rw [e1, e2]
      simp [hr.2.1, hr.2.2]
    unfold loop
    refine parsesAt_bytesRead ?_
    rw [if_pos (by omega)]
    refine ParsesAt.bind ((parses_getAtom (parsesAt_ref (h1 r (by simp)) (by omega)) (by omega) (h2 r (by simp)) hu).at _) ?_
    rw [if_neg hfs]
    have := ih (acc ++ [r]) f (k + (layoutRef r).length) (by simp at hf; omega)
      (fun x hx => h1 x (by simp [hx])) (fun x hx => h2 x (by simp [hx])) (fun x hx => h3 x (by simp [hx]))
      (by omega) hsz
    simpa [layoutRef] using this

/-- The whole box is read back. -/
theorem c39_round_trip (l : List Ref) (hl : Fits l) :
    BoxRoundTrip (size l) (serialize l) parse l (layout l) := by
  have hsz := hl.size
  rw [layout_length] at hsz
  have hsum : (l.map refSize).sum = (l.flatMap layoutRef).length := by
    have : ∀ r ∈ l, refSize r = (layoutRef r).length := fun r hr =>
      refSize_eq (by have := mem_layout_le hr; omega)
    rw [List.map_congr_left this, List.length_flatMap]
  have hsize : size l = 8 + (l.flatMap layoutRef).length := by
    unfold size; rw [hsum]; omega
  refine BoxRoundTrip.of (type := typeTref) ?_ ?_ hsize (by omega) (by decide) (by decide)
  · have := (emits_serBase (size l) typeTref).then (Emits.thenAssert (Emits.each (g := layoutRef) l fun r hr =>
      emits_nested (run_ref (hl.typed r hr) (by have := mem_layout_le hr; omega)) (refSize_eq (by have := mem_layout_le hr; omega)).symm))
    unfold serialize
    simpa using this
  · unfold parse
    intro rest
    rw [P.bind_apply]
    simp only [P.available]
    rw [P.bind_apply]
    have hlen : l.length < (l.flatMap layoutRef ++ rest).length + 1 := by
      have : l.length ≤ (l.flatMap layoutRef).length := by
        clear hsz hsum hsize hl
        induction l with
        | nil => simp
        | cons a l ih =>
          simp only [List.flatMap_cons, List.length_append, List.length_cons, layoutRef_length]
          omega
      rw [List.length_append]; omega
    rw [parsesAt_loop l [] _ 8 hlen hl.ids hl.type hl.special hsize.symm (by omega) rest]
    simp only [List.nil_append, P.bind_apply, P.bytesRead, hsize, ne_eq, not_true, if_false, P.pure_apply]

/-- What was added comes back from the file. -/
theorem c39_survives (calls : List (Nat × Nat)) (hl : Fits (run calls [])) (rest : Bytes) :
    ∃ bytes l h, runW (size (run calls [])) (serialize (run calls [])) = .ok bytes ∧
      parseAtom parse (bytes ++ rest) = .ok (l, h, rest) ∧ ∀ type, ids l type = firsts (asked type calls) := by
  obtain ⟨h1, h2, h3⟩ := c39_round_trip _ hl
  obtain ⟨h, h4⟩ := h3 rest
  exact ⟨_, _, h, h1, h4, fun type => c39_history calls type⟩

/-- The type 0, which `MP4AddTrackReference` accepts, cannot be written (an assertion fails). -/
theorem c39_no_type (l : List Ref) (id : Nat) (hid : id ≠ 0) (hf : find l 0 = none) :
    add l id 0 = .ok (l ++ [⟨0, [id]⟩], 1) ∧ ∀ size, runW size (putRef ⟨0, [id]⟩) = .ub := by
  refine ⟨?_, fun size => rfl⟩
  unfold add addTrackID
  rw [if_neg hid, hf]
  simp only [if_neg hid]
  rfl

/-! ## C50: the index that is returned -/

/-- For a track that is not yet referenced in this way the index returned leads to it; for one that
is, the index returned is that of the last reference. -/
theorem c50_index_partial (l : List Ref) (id type : Nat) (hid : id ≠ 0) (ht : type ≠ 0)
    (hnew : id ∉ ids l type) : ∃ l' i, add l id type = .ok (l', i) ∧ get l' type i = .ok id := by
  obtain ⟨l', i, h1, h2, h3, h4, h5, h6⟩ := add_spec l id type hid
  refine ⟨l', i, h1, ?_⟩
  rw [if_neg hnew] at h3
  obtain ⟨r, hr⟩ := Option.ne_none_iff_exists'.1 h5
  have hids : r.ids = ids l type ++ [id] := by rw [← h3]; simp [ids, hr]
  have hi : i = (ids l type).length + 1 := by rw [h2, h3]; simp
  unfold get
  subst hi
  simp [hr, ht, hids, hid]

/-- The index does not lead to the track: track 7 is referenced twice, the second time its index is
returned as 2, which is track 8. -/
theorem c50_index_fails : ∃ calls id type l' i, id ≠ 0 ∧ type ≠ 0 ∧ add (run calls []) id type = .ok (l', i) ∧
    get l' type i = .ok 8 ∧ id = 7 :=
  ⟨[(7, 5), (8, 5)], 7, 5, [⟨5, [7, 8]⟩], 2, by decide⟩

/-! ## Cases that meet the hypotheses -/

example := c39_no_type [⟨5, [7]⟩] 3 (by decide) rfl

def dpnd : Nat := fcc 'd' 'p' 'n' 'd'
def hint : Nat := fcc 'h' 'i' 'n' 't'
def calls : List (Nat × Nat) := [(3, dpnd), (2, hint), (0, dpnd), (9, dpnd), (3, dpnd), (4294967295, dpnd)]

example : ids (run calls []) dpnd = [3, 9, 4294967295] ∧ ids (run calls []) hint = [2] ∧
    get (run calls []) dpnd 2 = .ok 9 ∧ 5 ∉ ids (run calls []) dpnd := by decide

theorem calls_fit : Fits (run calls []) := by
  have e : run calls [] = [⟨dpnd, [3, 9, 4294967295]⟩, ⟨hint, [2]⟩] := by decide
  rw [e]
  refine ⟨by decide, by decide, by decide, by decide, by decide⟩

example : (runW (size (run calls [])) (serialize (run calls []))).bind (fun bs =>
    (parseAtom parse (bs ++ [1])).bind fun r => .ok r.1) = .ok (run calls []) := by decide +kernel

end Verif.Tref
