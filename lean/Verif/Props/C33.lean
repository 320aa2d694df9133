import Verif.Model.Tracks

/-!
# C33: identifiers of tracks

Unique as long as ID 2^32 - 1 is not in use; after it, `nextTrackID` is 0 and IDs are not checked.
-/

namespace Verif.Tracks

variable {α : Type}

/-! ## Specification -/

/-- A request for a new track `t`: `none` for an automatic ID. -/
structure Req (α : Type) where
  id : Option Nat
  t : α

def ask (m : Movie α) (r : Req α) : Movie α × Res Nat :=
  match r.id with
  | none => newTrack m r.t
  | some id => newTrackWithID m r.t id

/-- The movie after some requests, whatever their results are. -/
def run : List (Req α) → Movie α → Movie α
  | [], m => m
  | r :: rs, m => run rs (ask m r).1

def ids (m : Movie α) : List Nat := m.tracks.map Prod.fst

/-- IDs asked for are 32-bit numbers, and none is asked for when a track has ID 2^32 - 1. -/
def Below : List (Req α) → Movie α → Prop
  | [], _ => True
  | r :: rs, m => (∀ id, r.id = some id → id < 2 ^ 32 ∧ 2 ^ 32 - 1 ∉ ids m) ∧ Below rs (ask m r).1

/-! ## One request -/

theorem ask_eq (m : Movie α) (r : Req α) : ask m r = newTrackWithID m r.t (r.id.getD m.next) := by
  unfold ask newTrack
  cases r.id <;> rfl

/-- A refused request changes nothing; an accepted one adds one track, at the end. -/
theorem add_cases (m : Movie α) (t : α) (id : Nat) :
    (newTrackWithID m t id = (m, .err .badParam) ∧ (id = 0 ∨ id < m.next ∧ id ∈ ids m)) ∨
      ∃ next, newTrackWithID m t id = (⟨next, m.tracks ++ [(id, t)]⟩, .ok m.tracks.length) ∧
        id ≠ 0 ∧ (id ≥ m.next ∧ next = w32(id + 1) ∨ id < m.next ∧ next = m.next ∧ id ∉ ids m) := by
  by_cases h0 : id = 0
  · exact .inl ⟨by simp [newTrackWithID, requestID, h0], .inl h0⟩
  · by_cases h1 : id ≥ m.next
    · exact .inr ⟨w32(id + 1), by simp [newTrackWithID, requestID, h0, h1], h0, .inl ⟨h1, rfl⟩⟩
    · by_cases h2 : id ∈ ids m
      · left
        have : m.tracks.any (fun t => t.1 == id) = true := by
          obtain ⟨p, hp, e⟩ := List.mem_map.mp h2
          exact List.any_eq_true.mpr ⟨p, hp, by simp [e]⟩
        exact ⟨by simp only [newTrackWithID, requestID, if_neg h0, if_neg h1, this, if_true], .inr ⟨by omega, h2⟩⟩
      · right
        have : m.tracks.any (fun t => t.1 == id) = false := by
          rw [List.any_eq_false]
          intro p hp e
          exact h2 (List.mem_map.mpr ⟨p, hp, by simpa using e⟩)
        refine ⟨m.next, ?_, h0, .inr ⟨by omega, rfl, h2⟩⟩
        simp [newTrackWithID, requestID, h0, h1, this]

/-! ## Theorems -/

/-- A refused request leaves the movie as it was. An accepted one keeps the tracks there are and adds the
track, with the ID asked for or the one that `nextTrackID` gives, at the place that is returned. -/
theorem c33_refused (m : Movie α) (r : Req α) :
    (∀ e, (ask m r).2 = .err e → (ask m r).1 = m) ∧ (ask m r).2 ≠ .ub ∧
    ∀ k, (ask m r).2 = .ok k → (ask m r).1.tracks = m.tracks ++ [(r.id.getD m.next, r.t)] ∧ k = m.tracks.length := by
  rw [ask_eq]
  rcases add_cases m r.t (r.id.getD m.next) with ⟨h, -⟩ | ⟨n, h, -⟩
  · rw [h]; simp
  · rw [h]; simp [eq_comm]

/-- No track has ID 0. -/
theorem c33_nonzero (rs : List (Req α)) : 0 ∉ ids (run rs (create α)) := by
  suffices h : ∀ m : Movie α, 0 ∉ ids m → 0 ∉ ids (run rs m) from h _ (by simp [ids, create])
  induction rs with
  | nil => exact fun m h => h
  | cons r rs ih =>
    intro m h
    refine ih _ ?_
    rw [ask_eq]
    rcases add_cases m r.t (r.id.getD m.next) with ⟨e, -⟩ | ⟨n, e, h0, -⟩
    · rw [e]; exact h
    · rw [e]
      show 0 ∉ (m.tracks ++ [(_, r.t)]).map Prod.fst
      rw [List.map_append]
      simp only [List.map_cons, List.map_nil, List.mem_append, List.mem_singleton, not_or]
      exact ⟨h, fun c => h0 c.symm⟩

/-- What holds between requests. The movie header of a file that was read must meet it too. -/
structure Inv (m : Movie α) : Prop where
  nodup : (ids m).Nodup
  nextLt : m.next < 2 ^ 32
  fresh : 2 ^ 32 - 1 ∉ ids m → ∀ x ∈ ids m, x < m.next
  pos : 2 ^ 32 - 1 ∉ ids m → m.next ≠ 0
  last : 2 ^ 32 - 1 ∈ ids m → m.next = 0

theorem Inv.ask {m : Movie α} (h : Inv m) (r : Req α)
    (hr : ∀ id, r.id = some id → id < 2 ^ 32 ∧ 2 ^ 32 - 1 ∉ ids m) : Inv (ask m r).1 := by
  obtain ⟨h1, h3, h4, h5, h6⟩ := h
  have key : r.id.getD m.next < 2 ^ 32 ∧ (r.id.getD m.next ≠ 0 → 2 ^ 32 - 1 ∉ ids m) := by
    cases e : r.id with
    | some id => exact ⟨(hr id e).1, fun _ => (hr id e).2⟩
    | none =>
      exact ⟨h3, fun h0 c => (show m.next ≠ 0 from h0) (h6 c)⟩
  rw [ask_eq]
  generalize r.id.getD m.next = id at key
  rcases add_cases m r.t id with ⟨h, -⟩ | ⟨n, h, h0, hn⟩
  · rw [h]; exact ⟨h1, h3, h4, h5, h6⟩
  · obtain ⟨k1, k2⟩ := key
    have k4 := k2 h0
    have h4 := h4 k4
    have h5 := h5 k4
    have k3 : id ∉ ids m := by
      rcases hn with ⟨a, -⟩ | ⟨-, -, a⟩
      · intro c; have := h4 id c; omega
      · exact a
    have hi : ids (⟨n, m.tracks ++ [(id, r.t)]⟩ : Movie α) = ids m ++ [id] := by simp [ids]
    rw [h]
    refine ⟨?_, ?_, ?_, ?_, ?_⟩
    · rw [hi, List.nodup_append]
      refine ⟨h1, by simp, ?_⟩
      intro a ha b hb e
      simp only [List.mem_singleton] at hb
      exact k3 (hb ▸ e ▸ ha)
    · show n < 2 ^ 32
      omega
    · rw [hi]
      intro hm x hx
      show x < n
      simp only [List.mem_append, List.mem_singleton, not_or] at hm hx
      rcases hx with hx | rfl
      · have := h4 x hx; omega
      · omega
    · rw [hi]
      intro hm
      show n ≠ 0
      simp only [List.mem_append, List.mem_singleton, not_or] at hm
      omega
    · rw [hi]
      intro hm
      show n = 0
      simp only [List.mem_append, List.mem_singleton] at hm
      rcases hm with hm | hm
      · exact absurd hm k4
      · omega

theorem inv_run (rs : List (Req α)) : ∀ m : Movie α, Inv m → Below rs m → Inv (run rs m) := by
  induction rs with
  | nil => exact fun m h _ => h
  | cons r rs ih => exact fun m h hc => ih _ (h.ask r hc.1) hc.2

theorem inv_create : Inv (create α) := by
  have e : ids (create α) = [] := rfl
  exact ⟨by simp [e], by simp [create], by simp [e], by simp [create], by simp [e]⟩

/-- **C33 in part.** Whatever requests are made, unless a particular ID is asked for when a track has ID
2^32 - 1: no two tracks have the same ID. Missing: that case. -/
theorem c33_unique_partial (rs : List (Req α)) (h : Below rs (create α)) : (ids (run rs (create α))).Nodup :=
  (inv_run rs _ inv_create h).nodup

/-- The same for a movie read from a file, if `nextTrackID` is above all IDs (as the standard asks). -/
theorem c33_unique_read_partial (m : Movie α) (hd : (ids m).Nodup) (hn : m.next < 2 ^ 32)
    (hm : ∀ x ∈ ids m, x < m.next) (h0 : m.next ≠ 0) (rs : List (Req α)) (h : Below rs m) :
    (ids (run rs m)).Nodup := by
  refine (inv_run rs _ ⟨hd, hn, fun _ => hm, fun _ => h0, fun c => ?_⟩ h).nodup
  have := hm _ c
  omega

/-- A request for an ID in use is refused, before the limit. -/
theorem c33_in_use_refused (rs : List (Req α)) (h : Below rs (create α)) (id : Nat) (t : α)
    (hid : id ∈ ids (run rs (create α))) (hm : 2 ^ 32 - 1 ∉ ids (run rs (create α))) :
    newTrackWithID (run rs (create α)) t id = (run rs (create α), .err .badParam) := by
  have inv := inv_run rs _ inv_create h
  have hlt := inv.fresh hm id hid
  rcases add_cases (run rs (create α)) t id with ⟨e, -⟩ | ⟨n, -, -, hn⟩
  · exact e
  · exfalso
    rcases hn with ⟨a, -⟩ | ⟨-, -, a⟩
    · omega
    · exact a hid

/-- Automatic IDs, for any number of tracks. -/
theorem c33_auto (rs : List (Req α)) (h : ∀ r ∈ rs, r.id = none) : (ids (run rs (create α))).Nodup := by
  refine c33_unique_partial rs ?_
  generalize create α = m
  induction rs generalizing m with
  | nil => trivial
  | cons r rs ih =>
    refine ⟨fun id e => ?_, ih (fun r hr => h r (List.mem_cons_of_mem _ hr)) _⟩
    rw [h r List.mem_cons_self] at e
    cases e

theorem lookup_mem {id : Nat} {t : α} : ∀ {l : List (Nat × α)}, (l.map Prod.fst).Nodup → (id, t) ∈ l →
    lookup id l = .ok t
  | [], _, h => by simp at h
  | p :: l, hd, h => by
    rw [List.map_cons, List.nodup_cons] at hd
    unfold lookup
    rcases List.mem_cons.mp h with rfl | h
    · simp
    · have : p.1 ≠ id := fun e => hd.1 (e ▸ List.mem_map.mpr ⟨(id, t), h, rfl⟩)
      rw [if_neg this]
      exact lookup_mem hd.2 h

theorem lookup_not_mem {id : Nat} : ∀ {l : List (Nat × α)}, id ∉ l.map Prod.fst → lookup id l = .err .badParam
  | [], _ => rfl
  | p :: l, h => by
    rw [List.map_cons, List.mem_cons, not_or] at h
    unfold lookup
    rw [if_neg fun e => h.1 e.symm]
    exact lookup_not_mem h.2

/-- **C33, looking up.** The track created with an ID is found by it; an ID without a track is refused. -/
theorem c33_lookup_partial (rs : List (Req α)) (h : Below rs (create α)) (id : Nat) :
    (∀ t, (id, t) ∈ (run rs (create α)).tracks → getTrack (run rs (create α)) id = .ok t) ∧
    (id ∉ ids (run rs (create α)) → getTrack (run rs (create α)) id = .err .badParam) :=
  ⟨fun _ ht => lookup_mem (c33_unique_partial rs h) ht, fun hn => lookup_not_mem hn⟩

/-! ## What fails -/

/-- After ID 2^32 - 1, any ID is accepted once more. -/
theorem c33_fails : ids (run [⟨none, 'a'⟩, ⟨some (2 ^ 32 - 1), 'b'⟩, ⟨some 1, 'c'⟩] (create Char)) =
    [1, 2 ^ 32 - 1, 1] := by decide

/-- The third track cannot be reached by its ID. -/
theorem c33_lookup_fails :
    getTrack (run [⟨none, 'a'⟩, ⟨some (2 ^ 32 - 1), 'b'⟩, ⟨some 1, 'c'⟩] (create Char)) 1 = .ok 'a' := by decide

/-! ## Examples -/

example : Below [⟨none, 'a'⟩, ⟨some 9, 'b'⟩, ⟨some 9, 'c'⟩, ⟨some 4, 'd'⟩, ⟨none, 'e'⟩] (create Char) := by
  simp [Below, ask, newTrack, newTrackWithID, requestID, create, ids]

example : (run [⟨none, 'a'⟩, ⟨some 9, 'b'⟩, ⟨some 9, 'c'⟩, ⟨some 4, 'd'⟩, ⟨none, 'e'⟩] (create Char)).tracks =
    [(1, 'a'), (9, 'b'), (4, 'd'), (10, 'e')] := by decide

end Verif.Tracks
