import Verif.Spec.FragFile
import Verif.Lemmas.Mdat
import Verif.Lemmas.Movie
import Verif.Props.C28
import Verif.Props.C29

/-! # Lemmas for C56 -/

namespace Verif.FragFile

open Traf (Entry Run Tfhd Tfdt Trex RTraf has)
open Movie (mapRes mapRes_map)

theorem bind_ok {α β : Type} (a : α) (f : α → Res β) : (Res.ok a).bind f = f a := rfl

/-! ## The samples of a run -/

theorem pick_eq {l : List Nat} {n i : Nat} (h : l.length = n ∨ l.length = 1) (hi : i < n) :
    pick l i = .ok (each l i) := by
  unfold pick each
  by_cases h1 : l.length = 1
  · rw [if_pos h1]
    obtain ⟨a, rfl⟩ := List.length_eq_one_iff.1 h1
    by_cases h0 : i ≥ [a].length
    · rw [if_pos h0]; rfl
    · rw [if_neg h0]
      have : i = 0 := by simp at h0; omega
      subst this
      rfl
  · have hl : l.length = n := by omega
    rw [if_neg h1, if_neg (show ¬ i ≥ l.length by omega), List.getElem?_eq_getElem (by omega)]
    simp [List.getD, List.getElem?_eq_getElem (show i < l.length by omega)]

/-- The entry before the sync samples are marked. -/
def plain (s : Samples) (i : Nat) : Entry :=
  { s.sample i with flags := if s.syncs.isSome then 0x10000 else 0 }

theorem entryAt_eq {s : Samples} (h : s.Good) {i : Nat} (hi : i < s.count) :
    entryAt s i = .ok (plain s i) := by
  unfold entryAt
  rw [pick_eq h.durations hi, bind_ok, pick_eq h.sizes hi, bind_ok]
  unfold padFlags
  rw [h.pads]
  simp only [bind_ok]
  unfold offsetAt plain Samples.sample
  cases ho : s.offsets with
  | none => simp only [bind_ok, Nat.zero_add]
  | some l =>
    have hl : i < l.length := by rw [h.offsets l ho]; exact hi
    simp only [List.getElem?_eq_getElem hl, bind_ok, Nat.zero_add]
    simp [List.getD, hl]

/-- Entries with bit 16 of the flags cleared for those in the list. -/
def marked (l : List Nat) (e : Nat → Entry) (n : Nat) : List Entry :=
  (List.range n).map fun i => { e i with flags := if i + 1 ∈ l then 0 else 0x10000 }

theorem toggle_eq (e : Nat → Entry) (n : Nat) (hn : n < 4294967296) : ∀ (l done : List Nat), (done ++ l).Nodup →
    (∀ k ∈ l, 1 ≤ k ∧ k ≤ n) → toggle l (marked done e n) = .ok (marked (done ++ l) e n) := by
  intro l
  induction l with
  | nil => intro done _ _; simp [toggle]
  | cons k l ih =>
    intro done hd hk
    obtain ⟨h1, h2⟩ := hk k (by simp)
    have hp : pred32 k = k - 1 := by unfold pred32; split <;> omega
    have hnot : k ∉ done := by
      intro hc
      have := List.nodup_append.1 hd
      exact this.2.2 k hc k (by simp) rfl
    have hg : (marked done e n)[k - 1]? = some { e (k - 1) with flags := 0x10000 } := by
      unfold marked
      rw [List.getElem?_map, List.getElem?_range (by omega)]
      simp only [Option.map_some]
      rw [show k - 1 + 1 = k by omega, if_neg hnot]
    unfold toggle
    rw [hp, hg]
    dsimp only
    have : (marked done e n).set (k - 1) { e (k - 1) with flags := 0x10000 ^^^ 0x10000 } =
        marked (done ++ [k]) e n := by
      apply List.ext_getElem?
      intro j
      unfold marked
      rw [List.getElem?_set, List.getElem?_map, List.getElem?_map]
      by_cases hj : k - 1 = j
      · subst hj
        rw [if_pos rfl, if_pos (by simp; omega), List.getElem?_range (by omega)]
        simp only [Option.map_some]
        rw [show k - 1 + 1 = k by omega, if_pos (by simp)]
        rfl
      · rw [if_neg hj]
        by_cases hjn : j < n
        · rw [List.getElem?_range hjn]
          simp only [Option.map_some, List.mem_append, List.mem_singleton]
          have : ¬ j + 1 = k := by omega
          simp only [this, or_false]
        · rw [List.getElem?_eq_none (by simp; omega)]
          rfl
    rw [this, ih (done ++ [k]) (by simpa using hd) fun x hx => hk x (by simp [hx])]
    simp

theorem entriesOf_eq {s : Samples} (h : s.Good) (hn : s.count < 4294967296) : entriesOf s = .ok s.wanted := by
  unfold entriesOf
  rw [mapRes_map (plain s) _ fun i hi => entryAt_eq h (List.mem_range.1 hi), bind_ok]
  unfold Samples.wanted
  cases hs : s.syncs with
  | none =>
    simp only
    congr 1
    apply List.map_congr_left
    intro i _
    simp [plain, Samples.sample, hs]
  | some l =>
    obtain ⟨h1, h2⟩ := h.syncs l hs
    have := toggle_eq s.sample s.count hn l [] (by simpa using h1) h2
    simp only
    have e1 : List.map (plain s) (List.range s.count) = marked [] s.sample s.count := by
      unfold marked
      apply List.map_congr_left
      intro i _
      simp [plain, hs]
    rw [e1, this]
    congr 1
    unfold marked
    apply List.map_congr_left
    intro i _
    simp [Samples.sample, hs]

theorem each_lt {l : List Nat} (h : ∀ d ∈ l, d < 2 ^ 32) (i : Nat) : each l i < 2 ^ 32 := by
  unfold each
  split
  · cases l with
    | nil => simp
    | cons a l => exact h a (by simp)
  · rw [List.getD_eq_getElem?_getD]
    cases hg : l[i]? with
    | none => simp
    | some v => exact h v (List.mem_of_getElem? hg)

theorem wanted_fits {s : Samples} (h : s.Good) : ∀ e ∈ s.wanted, Traf.EntryFits e := by
  intro e he
  obtain ⟨i, _, rfl⟩ := List.mem_map.1 he
  obtain ⟨r1, r2, r3⟩ := h.range
  refine ⟨each_lt r1 i, each_lt r2 i, ?_, ?_⟩
  · unfold Samples.sample
    cases s.syncs with
    | none => simp
    | some l => dsimp only; split <;> decide
  · unfold Samples.sample
    cases ho : s.offsets with
    | none => simp
    | some l =>
      dsimp only
      rw [List.getD_eq_getElem?_getD]
      cases hg : l[i]? with
      | none => simp
      | some v => exact r3 l ho v (List.mem_of_getElem? hg)

theorem wanted_length (s : Samples) : s.wanted.length = s.count := by simp [Samples.wanted]

theorem time_eq : ∀ (es : List Entry) (t : Nat), t + (es.map Entry.duration).sum < 4294967296 →
    es.foldl (fun t e => w32(t + e.duration)) t = t + (es.map Entry.duration).sum := by
  intro es
  induction es with
  | nil => intro t _; simp
  | cons e es ih =>
    intro t h
    simp only [List.map_cons, List.sum_cons] at h ⊢
    rw [List.foldl_cons, Nat.mod_eq_of_lt (by omega), ih _ (by omega)]
    omega

/-! ## Histories -/

theorem adds_append (i : Nat) (a b : List Op) : adds i (a ++ b) = adds i a ++ adds i b := by
  induction a with
  | nil => rfl
  | cons o a ih =>
    cases o with
    | add j s => simp only [List.cons_append, adds]; split <;> simp [ih]
    | delay d => exact ih

theorem delays_append (a b : List Op) : delays (a ++ b) = delays a + delays b := by
  induction a with
  | nil => simp [delays]
  | cons o a ih => cases o <;> simp only [List.cons_append, delays, ih]; omega

theorem dataOf_append (a b : List Op) : dataOf (a ++ b) = dataOf a ++ dataOf b := by
  induction a with
  | nil => rfl
  | cons o a ih => cases o <;> simp [dataOf, ih]

theorem spent_append (i : Nat) (a b : List Op) : spent i (a ++ b) = spent i a + spent i b := by
  simp [spent, adds_append]

/-- The runs of track `i`, the data of the first operation being at `off`. -/
def laid (i off : Nat) : List Op → List (Nat × Samples)
  | [] => []
  | .add j s :: ops =>
    if j = i then (off, s) :: laid i (off + s.data.length) ops else laid i (off + s.data.length) ops
  | .delay _ :: ops => laid i off ops

theorem laid_append (i : Nat) : ∀ (a : List Op) (off : Nat) (b : List Op),
    laid i off (a ++ b) = laid i off a ++ laid i (off + (dataOf a).length) b := by
  intro a
  induction a with
  | nil => intro off b; simp [laid, dataOf]
  | cons o a ih =>
    intro off b
    cases o with
    | add j s =>
      simp only [List.cons_append, laid, dataOf, List.length_append, ih]
      split <;> simp [Nat.add_assoc]
    | delay d => simp [laid, dataOf, ih]

theorem laid_adds (i : Nat) : ∀ (a : List Op) (off : Nat), (laid i off a).map (·.2) = adds i a := by
  intro a
  induction a with
  | nil => intro off; rfl
  | cons o a ih =>
    intro off
    cases o with
    | add j s => simp only [laid, adds]; split <;> simp [ih]
    | delay d => exact ih off

/-- The data of every run is where it is laid. -/
theorem laid_data (i : Nat) : ∀ (a : List Op) (pre : Bytes), ∀ x ∈ laid i pre.length a,
    (pre.length ≤ x.1 ∧ x.1 + x.2.data.length ≤ pre.length + (dataOf a).length) ∧
    ((pre ++ dataOf a).drop x.1).take x.2.data.length = x.2.data := by
  intro a
  induction a with
  | nil => intro pre x hx; simp [laid] at hx
  | cons o a ih =>
    intro pre x hx
    cases o with
    | add j s =>
      have key : ∀ x ∈ laid i (pre.length + s.data.length) a,
          (pre.length ≤ x.1 ∧ x.1 + x.2.data.length ≤ pre.length + (dataOf (.add j s :: a)).length) ∧
          ((pre ++ dataOf (.add j s :: a)).drop x.1).take x.2.data.length = x.2.data := by
        intro x hx
        have := ih (pre ++ s.data) x (by simpa using hx)
        simp only [dataOf, List.length_append, List.append_assoc] at this ⊢
        exact ⟨by omega, this.2⟩
      simp only [laid] at hx
      split at hx
      · rcases List.mem_cons.1 hx with rfl | hx
        · simp only [dataOf, List.length_append]
          exact ⟨by omega, by simp⟩
        · exact key x hx
      · exact key x hx
    | delay d => exact ih pre x hx

/-! ## Adding -/

def runOf (x : Nat × Samples) : Run := ⟨0, 0, x.1, 0, x.2.wanted⟩

/-- Track fragment `i` after some operations. -/
def trafOf (ops : List Op) (i : Nat) (t : Track) : Traf.Traf :=
  ⟨t.trex, ⟨0, 0, t.id, 0, t.trex.descIndex, 0, 0, 0⟩, some ⟨0, 0, t.time + delays ops⟩,
    (laid i 0 ops).map runOf⟩

/-- The state after some operations on a fresh fragment. -/
def stOf (pre : Bytes) (seq : Nat) (ts : List Track) (ops : List Op) (m : Mdat.T) : St :=
  ⟨pre, advance ts ops, seq, ts.mapIdx (trafOf ops), m⟩

/-- A fragment that was just started. -/
def fresh (pre : Bytes) (seq : Nat) (ts : List Track) : St := ⟨pre, ts, seq, makeTrafs ts, Mdat.create⟩

theorem fresh_eq (pre : Bytes) (seq : Nat) (ts : List Track) :
    fresh pre seq ts = stOf pre seq ts [] Mdat.create := by
  unfold fresh stOf
  congr 1
  · unfold advance
    apply List.ext_getElem?
    intro i
    rw [List.getElem?_mapIdx]
    cases ts[i]? <;> simp [delays, spent, adds]
  · unfold makeTrafs
    apply List.ext_getElem?
    intro i
    rw [List.getElem?_mapIdx, List.getElem?_map]
    cases ts[i]? <;> simp [trafOf, delays, laid]

theorem set_mapIdx {α β : Type} (l : List α) (f g : Nat → α → β) (i : Nat) (a : α) (b : β)
    (hi : l[i]? = some a) (hb : g i a = b) (h : ∀ j x, l[j]? = some x → j ≠ i → g j x = f j x) :
    (l.mapIdx f).set i b = l.mapIdx g := by
  apply List.ext_getElem?
  intro j
  rw [List.getElem?_set, List.getElem?_mapIdx, List.getElem?_mapIdx]
  by_cases hj : i = j
  · subst hj
    have : i < l.length := (List.getElem?_eq_some_iff.1 hi).1
    rw [if_pos rfl, if_pos (by simpa using this), hi]
    simp [hb]
  · rw [if_neg hj]
    cases hx : l[j]? with
    | none => rfl
    | some x => simp [h j x hx (Ne.symm hj)]

/-- What must hold for one fragment. -/
structure FragOk (ts : List Track) (ops : List Op) : Prop where
  each : ∀ op ∈ ops, OpOk ts op
  small : room ts ops < 2 ^ 31
  time : ∀ i t, ts[i]? = some t → t.time + (delays ops + spent i ops) < 2 ^ 32

theorem data_le (ops : List Op) : (dataOf ops).length ≤ (ops.map cost).sum := by
  induction ops with
  | nil => simp [dataOf]
  | cons o ops ih => cases o <;> simp [dataOf, cost] <;> omega

theorem FragOk.left {ts : List Track} {a b : List Op} (h : FragOk ts (a ++ b)) : FragOk ts a := by
  refine ⟨fun op ho => h.each op (by simp [ho]), ?_, fun i t ht => ?_⟩
  · have := h.small
    simp only [FragFile.room, List.map_append, List.sum_append] at this ⊢
    omega
  · have := h.time i t ht
    rw [delays_append, spent_append] at this
    omega

theorem step_ok (junk : Nat → UInt8) {pre : Bytes} {seq : Nat} {ts : List Track} {done : List Op} {m : Mdat.T}
    {op : Op} (h : FragOk ts (done ++ [op])) (hm : Mdat.Rep m (dataOf done)) :
    ∃ m', step junk (stOf pre seq ts done m) op = .ok (stOf pre seq ts (done ++ [op]) m') ∧
      Mdat.Rep m' (dataOf (done ++ [op])) := by
  cases op with
  | delay d =>
    refine ⟨m, ?_, by rw [dataOf_append]; simpa [dataOf] using hm⟩
    show Res.ok _ = _
    congr 1
    unfold addDelay stOf
    congr 1
    · unfold advance
      apply List.ext_getElem?
      intro i
      rw [List.getElem?_map, List.getElem?_mapIdx, List.getElem?_mapIdx]
      cases ht : ts[i]? with
      | none => rfl
      | some t =>
        have := h.time i t ht
        have hsp : spent i (done ++ [.delay d]) = spent i done := by
          rw [spent_append]
          simp [spent, adds]
        simp only [delays_append, hsp, delays] at this
        simp only [Option.map_some, delays_append, hsp, delays]
        congr 2
        omega
    · apply List.ext_getElem?
      intro i
      rw [List.getElem?_map, List.getElem?_mapIdx, List.getElem?_mapIdx]
      cases ht : ts[i]? with
      | none => rfl
      | some t =>
        have := h.time i t ht
        simp only [delays_append, delays] at this
        simp only [Option.map_some, trafOf, delays_append, delays, laid_append, laid, List.append_nil]
        congr 4
        omega
  | add i s =>
    obtain ⟨hi, hs⟩ := h.each (.add i s) (by simp)
    have hroom := h.small
    have hd := data_le (done ++ [.add i s])
    have hc : s.count < 4294967296 := by
      simp only [FragFile.room, List.map_append, List.sum_append, List.map_cons, List.map_nil, List.sum_cons,
        List.sum_nil, cost] at hroom
      omega
    simp only [FragFile.room] at hroom
    rw [dataOf_append] at hd
    simp only [dataOf, List.append_nil] at hd
    obtain ⟨t, ht⟩ : ∃ t, ts[i]? = some t := ⟨_, List.getElem?_eq_getElem hi⟩
    obtain ⟨m', e1, e2, -⟩ := Mdat.addData_ok junk (bs := s.data) hm (by omega)
    refine ⟨m', ?_, by rw [dataOf_append]; simpa [dataOf] using e2⟩
    show addSamples junk _ i s = _
    unfold addSamples
    have g1 : (stOf pre seq ts done m).trafs[i]? = some (trafOf done i t) := by
      simp [stOf, List.getElem?_mapIdx, ht]
    have g2 : (stOf pre seq ts done m).tracks[i]? = some { t with time := t.time + delays done + spent i done } := by
      simp [stOf, advance, List.getElem?_mapIdx, ht]
    rw [g1, g2]
    have g3 : (stOf pre seq ts done m).mdat = m := rfl
    simp only [g3, e1, bind_ok, entriesOf_eq hs hc]
    congr 1
    have htime := h.time i t ht
    have hsp : spent i (done ++ [.add i s]) = spent i done + (s.wanted.map Entry.duration).sum := by
      rw [spent_append]
      simp [spent, adds]
    have hdl : delays (done ++ [.add i s]) = delays done := by simp [delays_append, delays]
    unfold stOf
    congr 1
    · unfold advance
      refine set_mapIdx _ _ _ _ _ _ ht ?_ ?_
      · rw [hsp, hdl] at htime ⊢
        rw [time_eq _ _ (by omega)]
        congr 1
        omega
      · intro j x _ hj
        have : spent j (done ++ [.add i s]) = spent j done := by
          rw [spent_append]
          simp [spent, adds, Ne.symm hj]
        rw [this, hdl]
    · refine set_mapIdx _ _ _ _ _ _ ht ?_ ?_
      · unfold trafOf
        rw [hdl, laid_append]
        simp only [laid, if_true, Nat.zero_add, List.map_append, List.map_cons, List.map_nil]
        rw [hm.size, Nat.mod_eq_of_lt (by rw [List.length_append] at hd; omega)]
        rfl
      · intro j x _ hj
        unfold trafOf
        rw [hdl, laid_append]
        simp [laid, Ne.symm hj]

theorem steps_ok (junk : Nat → UInt8) {pre : Bytes} {seq : Nat} {ts : List Track} : ∀ (ops done : List Op)
    (m : Mdat.T), FragOk ts (done ++ ops) → Mdat.Rep m (dataOf done) →
    ∃ m', steps junk (stOf pre seq ts done m) ops = .ok (stOf pre seq ts (done ++ ops) m') ∧
      Mdat.Rep m' (dataOf (done ++ ops)) := by
  intro ops
  induction ops with
  | nil => intro done m _ hm; exact ⟨m, by simp [steps], by simpa using hm⟩
  | cons o ops ih =>
    intro done m h hm
    have e : done ++ o :: ops = (done ++ [o]) ++ ops := by simp
    rw [e] at h ⊢
    obtain ⟨m1, e1, e2⟩ := step_ok junk (pre := pre) (seq := seq) h.left hm
    obtain ⟨m2, e3, e4⟩ := ih (done ++ [o]) m1 h e2
    exact ⟨m2, by rw [steps, e1, bind_ok, e3], e4⟩

end Verif.FragFile
