import Verif.Model.FragSeq
import Verif.Lemmas.Auto

/-!
# C29: sequence numbers of fragments
-/

namespace Verif.FragSeq

/-! ## Specification -/

/-- The numbers of `n` fragments started one after another, the first from `c`. -/
def numbers : Nat → Cur → List Nat
  | 0, _ => []
  | n + 1, c =>
    match start false true c with
    | .ok (.moof s) => s :: numbers n (.moof s)
    | _ => []

/-- Each number is greater than all before it. -/
def Increasing (l : List Nat) : Prop := l.Pairwise (· < ·)

/-- Every fragment has a header, and the numbers increase. -/
def InOrder {α : Type} (ms : List (Fragment α)) : Prop :=
  ∃ l, ms.map (·.mfhd) = l.map some ∧ Increasing l

/-- The fragments merged one after another. -/
def mergeAll {α σ : Type} (f : α → σ → Res σ) : List (Fragment α) → σ → Res σ
  | [], s => .ok s
  | m :: ms, s => (f m.rest s).bind (mergeAll f ms)

/-! ## Starting -/

theorem numbers_moof (n s : Nat) (h : s + n < 4294967296) : numbers n (.moof s) = List.range' (s + 1) n := by
  induction n generalizing s with
  | zero => rfl
  | succ n ih =>
    have e : (s + 1) % 4294967296 = s + 1 := Nat.mod_eq_of_lt (by omega)
    have : start false true (.moof s) = .ok (.moof (s + 1)) := by simp [start, e]
    rw [numbers, this]
    dsimp only
    rw [ih (s + 1) (by omega)]
    rfl

/-- **C29, starting.** The fragments of a movie are numbered 1, 2, 3, ... as far as 32 bits go. -/
theorem c29_numbers (n : Nat) (h : n < 2 ^ 32) : numbers n .moov = List.range' 1 n := by
  cases n with
  | zero => rfl
  | succ n =>
    have : start false true .moov = .ok (.moof 1) := rfl
    rw [numbers, this]
    dsimp only
    rw [numbers_moof n 1 (by omega)]
    rfl

theorem increasing_range' (s n : Nat) : Increasing (List.range' s n) := by
  unfold Increasing
  exact List.pairwise_lt_range'

theorem c29_increasing (n : Nat) (h : n < 2 ^ 32) : Increasing (numbers n .moov) := by
  rw [c29_numbers n h]
  exact increasing_range' 1 n

/-- The number that follows the last one is 0. -/
theorem c29_wraps : start false true (.moof (2 ^ 32 - 1)) = .ok (.moof 0) := by decide

/-! ## Merging -/

theorem mergeLoop_ok {α σ : Type} (f : α → σ → Res σ) : ∀ (l : List Nat) (ms : List (Fragment α)) (prev : Option Nat) (s : σ),
    ms.map (·.mfhd) = l.map some → Increasing l → (∀ p, prev = some p → ∀ n ∈ l, p < n) →
    mergeLoop f prev ms s = mergeAll f ms s
  | [], [], _, _, _, _, _ => rfl
  | [], _ :: _, _, _, h, _, _ => by simp at h
  | _ :: _, [], _, _, h, _, _ => by simp at h
  | n :: l, m :: ms, prev, s, h, hi, hp => by
    rw [List.map_cons, List.map_cons, List.cons.injEq] at h
    obtain ⟨h1, h2⟩ := h
    obtain ⟨hi1, hi2⟩ := List.pairwise_cons.mp hi
    have ih : mergeLoop f (some n) ms = mergeAll f ms := by
      funext s
      exact mergeLoop_ok f l ms (some n) s h2 hi2 fun p e k hk => by injection e with e; subst e; exact hi1 k hk
    unfold mergeLoop mergeAll
    rw [h1]
    dsimp only
    cases prev with
    | none => dsimp only; rw [ih]
    | some p =>
      have := hp p rfl n List.mem_cons_self
      dsimp only
      rw [if_neg (by omega), ih]

theorem mergeLoop_inv {α σ : Type} (f : α → σ → Res σ) : ∀ (ms : List (Fragment α)) (prev : Option Nat) (s s' : σ),
    mergeLoop f prev ms s = .ok s' →
    ∃ l, ms.map (·.mfhd) = l.map some ∧ Increasing l ∧ (∀ p, prev = some p → ∀ n ∈ l, p < n)
  | [], _, _, _, _ => ⟨[], rfl, List.Pairwise.nil, by simp⟩
  | m :: ms, prev, s, s', h => by
    unfold mergeLoop at h
    cases hm : m.mfhd with
    | none => rw [hm] at h; cases h
    | some n =>
      rw [hm] at h
      dsimp only at h
      have main : ∀ s1, mergeLoop f (some n) ms s1 = .ok s' → (∀ p, prev = some p → p < n) →
          ∃ l, (m :: ms).map (·.mfhd) = l.map some ∧ Increasing l ∧ (∀ p, prev = some p → ∀ k ∈ l, p < k) := by
        intro s1 h1 hp
        obtain ⟨l, e1, e2, e3⟩ := mergeLoop_inv f ms (some n) s1 s' h1
        refine ⟨n :: l, by rw [List.map_cons, List.map_cons, e1, hm], List.pairwise_cons.mpr ⟨e3 n rfl, e2⟩, ?_⟩
        intro p e k hk
        rcases List.mem_cons.mp hk with rfl | hk
        · exact hp p e
        · have := e3 n rfl k hk
          have := hp p e
          omega
      cases prev with
      | none =>
        obtain ⟨s1, -, h1⟩ := Res.bind_eq_ok.mp h
        exact main s1 h1 (by simp)
      | some p =>
        dsimp only at h
        split at h
        · cases h
        · next hp =>
          obtain ⟨s1, -, h1⟩ := Res.bind_eq_ok.mp h
          exact main s1 h1 fun q e => by injection e with e; omega

/-- **C29, merging.** Fragments in order are merged one after another: the check of the numbers plays no
part. Merging succeeds only if they are in order. -/
theorem c29_merge {α σ : Type} (f : α → σ → Res σ) (ms : List (Fragment α)) (s : σ) :
    (InOrder ms → merge f ms s = mergeAll f ms s) ∧ ((∃ s', merge f ms s = .ok s') → InOrder ms) := by
  constructor
  · rintro ⟨l, h1, h2⟩
    exact mergeLoop_ok f l ms none s h1 h2 (by simp)
  · rintro ⟨s', h⟩
    obtain ⟨l, h1, h2, -⟩ := mergeLoop_inv f ms none s s' h
    exact ⟨l, h1, h2⟩

theorem mergeAll_total {α σ : Type} (f : α → σ → σ) (ms : List (Fragment α)) (s : σ) :
    mergeAll (fun a s => .ok (f a s)) ms s = .ok (ms.foldl (fun s m => f m.rest s) s) := by
  induction ms generalizing s with
  | nil => rfl
  | cons m ms ih => exact ih _

theorem mergeLoop_err {α σ : Type} (f : α → σ → σ) : ∀ (ms : List (Fragment α)) (prev : Option Nat) (s : σ),
    (∃ s', mergeLoop (fun a s => .ok (f a s)) prev ms s = .ok s') ∨
      mergeLoop (fun a s => .ok (f a s)) prev ms s = .err .badData
  | [], _, s => .inl ⟨s, rfl⟩
  | m :: ms, prev, s => by
    unfold mergeLoop
    cases m.mfhd with
    | none => exact .inr rfl
    | some n =>
      cases prev with
      | none => exact mergeLoop_err f ms (some n) (f m.rest s)
      | some p =>
        dsimp only
        split
        · exact .inr rfl
        · exact mergeLoop_err f ms (some n) (f m.rest s)

/-- The decision alone: when merging one fragment always succeeds, all of them are merged if the numbers
increase, and otherwise the file is refused. -/
theorem c29_decision {α σ : Type} (f : α → σ → σ) (ms : List (Fragment α)) (s : σ) :
    (InOrder ms → merge (fun a s => .ok (f a s)) ms s = .ok (ms.foldl (fun s m => f m.rest s) s)) ∧
    (¬ InOrder ms → merge (fun a s => .ok (f a s)) ms s = .err .badData) := by
  obtain ⟨h1, h2⟩ := c29_merge (fun a s => .ok (f a s)) ms s
  refine ⟨fun h => (h1 h).trans (mergeAll_total f ms s), fun h => ?_⟩
  rcases mergeLoop_err f ms none s with ⟨s', e⟩ | e
  · exact absurd (h2 ⟨s', e⟩) h
  · exact e

/-! ## The header -/

/-- The layout of the fragment header in the standard. -/
def mfhdLayout (h : Mfhd) : Bytes := fullBox (fcc 'm' 'f' 'h' 'd') h.version h.flags (be 4 h.seq)

/-- The header is written in its layout and parsed again. -/
theorem c29_header (h : Mfhd) (hv : h.version < 256) (hf : h.flags < 2 ^ 24) (hs : h.seq < 2 ^ 32) :
    BoxRoundTrip 16 (mfhdSerialize h) mfhdParse h (mfhdLayout h) := by
  have ht : typeMfhd = fcc 'm' 'f' 'h' 'd' := by decide
  unfold mfhdLayout
  rw [← ht]
  refine BoxRoundTrip.ofFull (type := typeMfhd) ?_ ?_ ?_ ?_ (by decide) (by decide)
  · emits
  · apply Parses.at
    unfold mfhdParse
    refine (parses_versionFlags hv hf).bind ?_
    refine (parses_get32' hs).bind_nil ?_
    exact parses_pure _
  · simp only [List.length_append, be_length]
  · decide

/-- **C29, both.** The fragments started one after another, each with any contents, are accepted when they
are read. -/
theorem c29_accepted {α σ : Type} (f : α → σ → σ) (contents : List α) (h : contents.length < 2 ^ 32) (s : σ) :
    merge (fun a s => .ok (f a s))
      (List.zipWith (fun n a => ⟨some n, a⟩) (numbers contents.length .moov) contents) s =
      .ok (contents.foldl (fun s a => f a s) s) := by
  rw [c29_numbers _ h]
  have key : ∀ (l : List α) (k : Nat),
      (List.zipWith (fun n a => (⟨some n, a⟩ : Fragment α)) (List.range' k l.length) l).map (·.mfhd) =
        (List.range' k l.length).map some ∧
      (List.zipWith (fun n a => (⟨some n, a⟩ : Fragment α)) (List.range' k l.length) l).map (·.rest) = l := by
    intro l
    induction l with
    | nil => intro k; exact ⟨rfl, rfl⟩
    | cons a l ih =>
      intro k
      obtain ⟨i1, i2⟩ := ih (k + 1)
      simp only [List.length_cons, List.range'_succ, List.zipWith_cons_cons, List.map_cons, i1, i2]
      exact ⟨trivial, trivial⟩
  obtain ⟨k1, k2⟩ := key contents 1
  rw [(c29_decision f _ s).1 ⟨_, k1, increasing_range' _ _⟩]
  have fold : ∀ (ms : List (Fragment α)) (s : σ),
      ms.foldl (fun s m => f m.rest s) s = (ms.map (·.rest)).foldl (fun s a => f a s) s := by
    intro ms
    induction ms with
    | nil => intro s; rfl
    | cons m ms ih => intro s; exact ih _
  rw [fold, k2]

/-! ## Examples -/

example : numbers 4 .moov = [1, 2, 3, 4] := by decide

example : InOrder [⟨some 3, 'a'⟩, ⟨some 7, 'b'⟩, ⟨some 8, 'c'⟩] := ⟨[3, 7, 8], rfl, by simp [Increasing]⟩

example : merge (fun c s => .ok (s ++ [c])) [⟨some 3, 'a'⟩, ⟨some 7, 'b'⟩, ⟨some 7, 'c'⟩] [] = .err .badData := by decide

example : (⟨0, 0, 5⟩ : Mfhd).version < 256 := by decide

end Verif.FragSeq
