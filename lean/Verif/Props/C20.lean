import Verif.Model.Sdtp
import Verif.Spec.Batch
import Verif.Lemmas.Box

/-!
# C20 — sample dependencies survive being set, written and parsed
-/

namespace Verif.Sdtp

/-- Operations on a track: add `n` samples; set the dependencies of consecutive samples, starting
at a sample counted from 0 or, if negative, back from the end. `junk` is what new memory holds. -/
inductive Op
  | add (n : Nat) (junk : Nat → UInt8)
  | set (index : Int) (deps : Bytes) (junk : Nat → UInt8)

/-- First sample (from 0) that a set operation addresses in a track of `n` samples. -/
def first (n : Nat) (index : Int) : Int := if index < 0 then n + index else index

/-- The dependencies of all samples after an operation: new samples have 0; setting some beyond the
last sample is refused. -/
def Op.apply (L : Bytes) : Op → Bytes
  | .add n _ => L ++ List.replicate n 0
  | .set index deps _ =>
    if first L.length index + deps.length ≤ L.length then Mem.overwrite L (first L.length index).toNat deps
    else L

/-- Arguments of their C types; not too many samples; no index from the end before the first
sample. -/
def Op.Valid (n : Nat) : Op → Prop
  | .add k _ => n + k < 4294967284
  | .set index deps _ => -(n : Int) ≤ index ∧ index < 2147483648 ∧ deps.length < 2147483648

def step (s : St) : Op → Res St
  | .add n junk => tableAdd junk s n
  | .set index deps junk => (tableSet junk s index deps).bind fun r => .ok r.1

/-- Every operation is valid in the state it is applied to. -/
def AllValid : Bytes → List Op → Prop
  | _, [] => True
  | L, o :: os => o.Valid L.length ∧ AllValid (o.apply L) os

def layout (version flags : Nat) (L : Bytes) : Bytes := fullBox (fcc 's' 'd' 't' 'p') version flags L

structure Rep (t : Sdtp) (L : Bytes) : Prop where
  count : t.count = L.length
  alloc : t.alloc = t.cells.length
  cells : t.cells.take L.length = L

theorem Rep.le {t : Sdtp} {L : Bytes} (h : Rep t L) : L.length ≤ t.cells.length := by
  have := congrArg List.length h.cells
  rw [List.length_take] at this; omega

theorem ensureSize_rep {junk : Nat → UInt8} {t : Sdtp} {L : Bytes} (h : Rep t L) (k : Nat) :
    Rep (ensureSize junk t k) L ∧ k ≤ (ensureSize junk t k).cells.length := by
  unfold ensureSize
  by_cases hk : k > t.alloc
  · rw [if_pos hk]
    have hle : t.cells.length ≤ max ((t.alloc + 4096) % 4294967296) k := by rw [← h.alloc]; omega
    refine ⟨⟨h.count, ?_, ?_⟩, ?_⟩
    · simp only [Mem.realloc_length junk _ hle]
    · simp only [Mem.realloc_take junk _ hle h.le, h.cells]
    · simp only [Mem.realloc_length junk _ hle]; omega
  · rw [if_neg hk]
    exact ⟨h, by rw [← h.alloc]; omega⟩

theorem addSamples_rep {junk : Nat → UInt8} {t : Sdtp} {L : Bytes} (h : Rep t L) (n : Nat)
    (hn : L.length + n < 4294967296) :
    ∃ t', addSamples junk t n = .ok t' ∧ Rep t' (L ++ List.replicate n 0) := by
  have e : (t.count + n) % 4294967296 = L.length + n := by rw [h.count]; omega
  have he := ensureSize_rep (junk := junk) h (L.length + n)
  obtain ⟨c, h1, h2, h3⟩ := Mem.store_push (vals := List.replicate n 0) he.1.cells (by simp; exact he.2)
  refine ⟨⟨L.length + n, (ensureSize junk t (L.length + n)).alloc, c⟩, ?_, ⟨by simp, ?_, h3⟩⟩
  · unfold addSamples
    rw [e, h.count, h1]
    rfl
  · rw [h2]; exact he.1.alloc

theorem rep_create : Rep create [] := ⟨rfl, rfl, rfl⟩

theorem setDependency_rep {t : Sdtp} {L : Bytes} (h : Rep t L) (index : Int) (deps : Bytes)
    (hL : L.length < 4294967284) (h1 : -(L.length : Int) ≤ index) (h2 : index < 2147483648)
    (h3 : deps.length < 2147483648) :
    (first L.length index + deps.length ≤ L.length → ∃ t', setDependency t index deps = .ok t' ∧
      Rep t' (Mem.overwrite L (first L.length index).toNat deps)) ∧
    (¬ first L.length index + deps.length ≤ L.length → setDependency t index deps = .err .badParam) := by
  unfold first
  have done : ∀ (start : Nat), start + deps.length ≤ L.length → ∃ t',
      ((Mem.store t.cells start deps).bind fun c => .ok (⟨t.count, t.alloc, c⟩ : Sdtp)) = .ok t' ∧
        Rep t' (Mem.overwrite L start deps) := by
    intro start hs
    obtain ⟨c, g1, g2, g3⟩ := Mem.store_over h.cells hs
    refine ⟨⟨t.count, t.alloc, c⟩, by rw [g1]; rfl, ?_, ?_, ?_⟩
    · rw [Mem.overwrite_length]; exact h.count
    · rw [g2]; exact h.alloc
    · rw [Mem.overwrite_length]; exact g3
  by_cases hneg : index < 0
  · rw [if_pos hneg]
    unfold setDependency
    rw [if_pos hneg]
    refine ⟨fun hr => ?_, fun hr => ?_⟩
    · rw [if_neg (by omega)]
      by_cases hd : deps = []
      · rw [if_pos hd]
        refine ⟨t, rfl, ?_⟩
        subst hd
        rw [Mem.overwrite_eq (by simp; omega)]
        simpa using h
      · rw [if_neg hd]
        have e : fromEnd t.count index = ((L.length : Int) + index).toNat := by
          unfold fromEnd u32i; rw [h.count]; omega
        rw [e]
        exact done _ (by omega)
    · rw [if_pos (by omega)]
  · rw [if_neg hneg]
    unfold setDependency
    rw [if_neg hneg]
    have e : (deps.length + index.toNat) % 4294967296 = deps.length + index.toNat := by omega
    rw [e, h.count]
    refine ⟨fun hr => ?_, fun hr => ?_⟩
    · rw [if_neg (by omega), ← h.count]
      exact done _ (by omega)
    · rw [if_pos (by omega)]

/-- The state holds the dependencies `L`; without a table all are 0. -/
def StRep (s : St) (L : Bytes) : Prop :=
  s.samples = L.length ∧ L.length < 4294967284 ∧
  match s.sdtp with
  | some t => Rep t L
  | none => L = List.replicate L.length 0

theorem theTable_rep {junk : Nat → UInt8} {s : St} {L : Bytes} (h : StRep s L) :
    ∃ t, theTable junk s = .ok t ∧ Rep t L := by
  obtain ⟨h1, h2, h3⟩ := h
  unfold theTable
  cases hs : s.sdtp with
  | some t => rw [hs] at h3; exact ⟨t, rfl, h3⟩
  | none =>
    rw [hs] at h3
    by_cases h0 : s.samples > 0
    · simp only [if_pos h0]
      rw [h3, h1]
      obtain ⟨t, g1, g2⟩ := addSamples_rep (junk := junk) rep_create L.length (by simp; omega)
      exact ⟨t, g1, by simpa using g2⟩
    · simp only [if_neg h0]
      have : L = [] := List.length_eq_zero_iff.mp (by omega)
      subst this
      exact ⟨_, rfl, rep_create⟩

theorem step_rep {s : St} {L : Bytes} (h : StRep s L) (o : Op) (hv : o.Valid L.length) :
    ∃ s', step s o = .ok s' ∧ StRep s' (o.apply L) := by
  cases o with
  | add n junk =>
    obtain ⟨h1, h2, h3⟩ := h
    have hv : L.length + n < 4294967284 := hv
    have e : (s.samples + n) % 4294967296 = (L ++ List.replicate n 0).length := by
      rw [h1, List.length_append, List.length_replicate]; omega
    have e2 : (L ++ List.replicate n (0 : UInt8)).length < 4294967284 := by
      rw [List.length_append, List.length_replicate]; omega
    unfold step tableAdd
    cases hs : s.sdtp with
    | none =>
      rw [hs] at h3
      refine ⟨_, rfl, e, e2, ?_⟩
      show L ++ List.replicate n 0 = _
      simp only [Op.apply, List.length_append, List.length_replicate]
      rw [← List.replicate_append_replicate, ← h3]
    | some t =>
      rw [hs] at h3
      obtain ⟨t', g1, g2⟩ := addSamples_rep (junk := junk) h3 n (by omega)
      refine ⟨⟨_, some t'⟩, ?_, e, e2, g2⟩
      simp only [g1, Res.bind]
  | set index deps junk =>
    obtain ⟨v1, v2, v3⟩ := hv
    obtain ⟨t, g1, g2⟩ := theTable_rep (junk := junk) h
    obtain ⟨k1, k2⟩ := setDependency_rep g2 index deps h.2.1 v1 v2 v3
    unfold step tableSet
    simp only [g1, Res.bind, Op.apply]
    by_cases hr : first L.length index + deps.length ≤ L.length
    · obtain ⟨t', m1, m2⟩ := k1 hr
      rw [m1, if_pos hr]
      refine ⟨_, rfl, ?_, ?_, m2⟩
      · rw [Mem.overwrite_length]; exact h.1
      · rw [Mem.overwrite_length]; exact h.2.1
    · rw [k2 hr, if_neg hr]
      exact ⟨_, rfl, h.1, h.2.1, g2⟩

theorem run_rep (ops : List Op) : ∀ (s : St) (L : Bytes), StRep s L → AllValid L ops →
    ∃ s', runAll step s ops = .ok s' ∧ StRep s' (ops.foldl Op.apply L) := by
  induction ops with
  | nil => intro s L h _; exact ⟨s, rfl, h⟩
  | cons o ops ih =>
    intro s L h hv
    obtain ⟨s', h1, h2⟩ := step_rep h o hv.1
    obtain ⟨s'', g1, g2⟩ := ih s' _ h2 hv.2
    refine ⟨s'', ?_, g2⟩
    simp only [runAll, h1, Res.bind]
    exact g1

theorem StRep.get {s : St} {L : Bytes} (h : StRep s L) (n : Nat) :
    tableGet s (n + 1) = .ok (L.getD n 0) := by
  obtain ⟨h1, h2, h3⟩ := h
  unfold tableGet
  cases hs : s.sdtp with
  | none =>
    rw [hs] at h3
    simp only
    rw [h3]
    simp [List.getD_eq_getElem?_getD, List.getElem?_replicate]
    split <;> rfl
  | some t =>
    rw [hs] at h3
    have h3 : Rep t L := h3
    simp only
    unfold getDependency
    rw [if_neg (by omega), h3.count]
    by_cases hn : n + 1 > L.length
    · rw [if_pos hn]
      simp [List.getD_eq_getElem?_getD, List.getElem?_eq_none (show L.length ≤ n by omega)]
    · rw [if_neg hn, Nat.add_sub_cancel, Mem.get_of_take h3.cells (by omega)]
      simp [List.getD_eq_getElem?_getD, List.getElem?_eq_getElem (show n < L.length by omega)]

theorem round_trip (version flags : Nat) (t : Sdtp) (L : Bytes) (h : Rep t L) (hv : version < 256)
    (hf : flags < 16777216) (hL : L.length < 4294967284) :
    ∃ t', BoxRoundTrip (calcSize t) (serialize version flags t) parseBody ((version, flags), t')
      (layout version flags L) ∧ Rep t' L := by
  have hsz : calcSize t = 12 + L.length := by unfold calcSize; rw [h.count]; omega
  refine ⟨⟨L.length, (ensureSize (fun _ => 0) create L.length).alloc,
    L ++ List.replicate ((ensureSize (fun _ => 0) create L.length).alloc - L.length) 0⟩, ?_, ⟨rfl, ?_, by simp⟩⟩
  · refine BoxRoundTrip.ofFull ?_ ?_ (by omega) (by omega) (by decide) (by decide)
    · refine Emits.thenAssert ?_
      unfold putCells
      rw [h.count, if_pos h.le, h.cells]
      exact emits_bytes L
    · unfold parseBody
      refine ((parses_versionFlags hv hf).at 8).bind ?_
      intro r
      have e : remaining (calcSize t) (8 + (be 1 version ++ be 3 flags).length) = L.length := by
        unfold remaining
        rw [List.length_append, be_length, be_length, if_pos (by omega)]; omega
      simp only [P.bind_apply, P.bytesRead]
      rw [e, parses_getBytes rfl r]
      rfl
  · simp only [List.length_append, List.length_replicate]
    have := (ensureSize_rep (junk := fun _ => 0) rep_create L.length)
    have h2 := this.1.alloc
    omega

/-- For every history of additions and settings: no undefined behaviour, and the dependency reported
for every sample (numbered from 1) is the one last set, 0 if none was or there is no such sample. If
there is a table, it is written in the layout of the standard in exactly the computed size, and the
parsed table reports the same. -/
theorem c20_dependencies (version flags : Nat) (ops : List Op) (L : Bytes) (hL : L = ops.foldl Op.apply [])
    (hv : version < 256) (hf : flags < 16777216) (hops : AllValid [] ops) :
    ∃ s, runAll step ⟨0, none⟩ ops = .ok s ∧
      (∀ n, tableGet s (n + 1) = .ok (L.getD n 0)) ∧
      (∀ t, s.sdtp = some t → ∃ t', BoxRoundTrip (calcSize t) (serialize version flags t) parseBody
          ((version, flags), t') (layout version flags L) ∧
        ∀ n, tableGet ⟨s.samples, some t'⟩ (n + 1) = .ok (L.getD n 0)) := by
  subst hL
  obtain ⟨s, h1, h2⟩ := run_rep ops ⟨0, none⟩ [] ⟨rfl, by simp, rfl⟩ hops
  refine ⟨s, h1, h2.get, ?_⟩
  intro t ht
  have h3 := h2.2.2
  rw [ht] at h3
  obtain ⟨t', g1, g2⟩ := round_trip version flags t _ h3 hv hf h2.2.1
  have h2' : StRep ⟨s.samples, some t'⟩ (ops.foldl Op.apply []) := ⟨h2.1, h2.2.1, g2⟩
  exact ⟨t', g1, h2'.get⟩

/-- A set operation after the last sample is refused, with the error reported. -/
theorem c20_refused (s : St) (L : Bytes) (h : StRep s L) (junk : Nat → UInt8) (index : Int) (deps : Bytes)
    (h1 : -(L.length : Int) ≤ index) (h2 : index < 2147483648) (h3 : deps.length < 2147483648)
    (hr : L.length < first L.length index + deps.length) :
    ∃ s', tableSet junk s index deps = .ok (s', some .badParam) ∧ StRep s' L := by
  obtain ⟨t, g1, g2⟩ := theTable_rep (junk := junk) h
  have := (setDependency_rep g2 index deps h.2.1 h1 h2 h3).2 (by omega)
  refine ⟨⟨s.samples, some t⟩, ?_, h.1, h.2.1, g2⟩
  unfold tableSet
  simp only [g1, Res.bind, this]

/-- An index counted back from the end to before the first sample is not refused: the store is
outside the array. -/
theorem c20_before_first : setDependency ⟨2, 4096, List.replicate 4096 0⟩ (-5) [1] = .ub := by
  have : ¬ (4294967293 + 1 ≤ 4096) := by omega
  unfold setDependency
  rw [if_pos (by omega), if_neg (by simp), if_neg (by simp)]
  have e : fromEnd 2 (-5) = 4294967293 := by decide
  simp only [e, Mem.store, List.length_replicate, List.length_cons, List.length_nil]
  rfl

/-- Dependencies set before and after further samples were added, the last one twice. -/
example : [Op.add 3 (fun _ => 9), .set (-1) [0x18] (fun _ => 9), .add 2 (fun _ => 9), .set 1 [4, 5, 6] (fun _ => 9),
    .set 4 [1, 1] (fun _ => 9)].foldl Op.apply [] = [0, 4, 5, 6, 0] := by decide

example : AllValid [] [Op.add 3 (fun _ => 9), .set (-1) [0x18] (fun _ => 9), .add 2 (fun _ => 9),
    .set 1 [4, 5, 6] (fun _ => 9), .set 4 [1, 1] (fun _ => 9)] := by
  simp [AllValid, Op.Valid, Op.apply, first, Mem.overwrite]

end Verif.Sdtp
