import Verif.Lemmas.Moof

/-!
# C56: samples added to fragments are found in the written file
-/

namespace Verif.FragFile

open Traf (Entry Run Tfhd Tfdt Trex RTraf has Fits RunFits)

/-! ## The size of a fragment -/

def weight (s : Samples) : Nat := 24 + 16 * s.count

theorem sum_ite (j c : Nat) : ∀ n, ((List.range n).map fun i => if j = i then c else 0).sum ≤ c := by
  have key : ∀ n, ((List.range n).map fun i => if j = i then c else 0).sum = if j < n then c else 0 := by
    intro n
    induction n with
    | zero => simp
    | succ n ih =>
      rw [List.range_succ, List.map_append, List.sum_append, ih]
      simp only [List.map_cons, List.map_nil, List.sum_cons, List.sum_nil]
      by_cases h1 : j < n
      · rw [if_pos h1, if_neg (by omega), if_pos (by omega)]; simp
      · by_cases h2 : j = n
        · rw [if_neg h1, if_pos h2, if_pos (by omega)]; simp
        · rw [if_neg h1, if_neg h2, if_neg (by omega)]; rfl
  intro n
  rw [key]
  split <;> omega

theorem sum_add {α : Type} (l : List α) (f g : α → Nat) :
    (l.map fun x => f x + g x).sum = (l.map f).sum + (l.map g).sum := by
  induction l with
  | nil => rfl
  | cons x l ih => simp only [List.map_cons, List.sum_cons, ih]; omega

theorem sum_le_sum {α : Type} (l : List α) (f g : α → Nat) (h : ∀ x ∈ l, f x ≤ g x) :
    (l.map f).sum ≤ (l.map g).sum := by
  induction l with
  | nil => simp
  | cons x l ih =>
    have := h x (by simp)
    have := ih fun y hy => h y (by simp [hy])
    simp only [List.map_cons, List.sum_cons]
    omega

theorem weights_le (n : Nat) : ∀ ops : List Op,
    ((List.range n).map fun i => ((adds i ops).map weight).sum).sum + (dataOf ops).length ≤ (ops.map cost).sum := by
  intro ops
  induction ops with
  | nil =>
    simp only [adds, dataOf, List.map_nil, List.sum_nil, List.length_nil, Nat.add_zero]
    induction n with
    | zero => simp
    | succ n ih => rw [List.range_succ, List.map_append, List.sum_append]; simpa using ih
  | cons o ops ih =>
    cases o with
    | delay d => simpa [adds, dataOf, cost] using ih
    | add j s =>
      have e : ((List.range n).map fun i => ((adds i (.add j s :: ops)).map weight).sum) =
          (List.range n).map fun i => (if j = i then weight s else 0) + ((adds i ops).map weight).sum := by
        apply List.map_congr_left
        intro i _
        simp only [adds]
        split <;> simp
      rw [e, sum_add]
      have := sum_ite j (weight s) n
      simp only [dataOf, List.length_append, List.map_cons, List.sum_cons, cost]
      simp only [weight] at this ⊢
      omega

theorem mapIdx_range {α β : Type} (l : List α) (g : Nat → β) :
    (l.mapIdx fun i _ => g i) = (List.range l.length).map g := by
  apply List.ext_getElem?
  intro i
  rw [List.getElem?_mapIdx, List.getElem?_map]
  by_cases h : i < l.length
  · rw [List.getElem?_eq_getElem h, List.getElem?_range h]; rfl
  · rw [List.getElem?_eq_none (by omega), List.getElem?_eq_none (by simpa using h)]; rfl

theorem runs_weight (ops : List Op) (i : Nat) (t : Track) :
    ((trafOf ops i t).runs.map fun r => 24 + 16 * r.entries.length).sum = ((adds i ops).map weight).sum := by
  unfold trafOf
  rw [← laid_adds i ops 0, List.map_map, List.map_map]
  congr 1
  apply List.map_congr_left
  intro x _
  simp [runOf, weight, wanted_length]

/-! ## The track fragments -/

structure IdOk (trex : Nat → Option Trex) (t : Track) : Prop where
  pos : 0 < t.id
  small : t.id < 2 ^ 32
  index : t.trex.descIndex < 2 ^ 32
  known : trex t.id = some t.trex

theorem adds_mem {i : Nat} {ops : List Op} {s : Samples} (h : s ∈ adds i ops) : Op.add i s ∈ ops := by
  induction ops with
  | nil => simp [adds] at h
  | cons o ops ih =>
    cases o with
    | delay d => exact List.mem_cons_of_mem _ (ih h)
    | add j x =>
      simp only [adds] at h
      split at h
      · rename_i hj
        subst hj
        rcases List.mem_cons.1 h with rfl | h
        · simp
        · exact List.mem_cons_of_mem _ (ih h)
      · exact List.mem_cons_of_mem _ (ih h)

theorem laid_mem {i : Nat} {ops : List Op} {x : Nat × Samples} (h : x ∈ laid i 0 ops) : Op.add i x.2 ∈ ops := by
  apply adds_mem
  rw [← laid_adds i ops 0]
  exact List.mem_map.2 ⟨x, h, rfl⟩

theorem weight_le {n i : Nat} (hi : i < n) (ops : List Op) :
    ((adds i ops).map weight).sum ≤ ((List.range n).map fun i => ((adds i ops).map weight).sum).sum := by
  induction n with
  | zero => omega
  | succ n ih =>
    rw [List.range_succ, List.map_append, List.sum_append]
    simp only [List.map_cons, List.map_nil, List.sum_cons, List.sum_nil]
    by_cases h : i = n
    · subst h; omega
    · have := ih (by omega); omega

theorem trafOf_ok {trex : Nat → Option Trex} {ts : List Track} {ops : List Op} (h : FragOk ts ops)
    (hid : ∀ t ∈ ts, IdOk trex t) {i : Nat} {t : Track} (ht : ts[i]? = some t) : TrafOk (trafOf ops i t) := by
  by_cases hr : (trafOf ops i t).runs = []
  · exact .inl hr
  · right
    have ho := hid t (List.mem_of_getElem? ht)
    have hi : i < ts.length := (List.getElem?_eq_some_iff.1 ht).1
    have hsm := h.small
    have hw := weights_le ts.length ops
    have hwi := weight_le hi ops
    simp only [FragFile.room] at hsm
    refine ⟨Nat.two_pow_pos 8, ho.small, Nat.two_pow_pos 64, ho.index, ?_, hr, ?_, ?_⟩
    · intro d hd
      have := h.time i t ht
      injection hd with hd
      subst hd
      exact ⟨Nat.two_pow_pos 24, .inl ⟨rfl, by show t.time + delays ops < 2 ^ 32; omega⟩⟩
    · intro r hr
      obtain ⟨x, hx, rfl⟩ := List.mem_map.1 hr
      obtain ⟨-, hg⟩ := h.each _ (laid_mem hx)
      have hd := (laid_data i ops [] x hx).1
      refine ⟨Nat.two_pow_pos 8, ?_, ?_, wanted_fits hg⟩
      · show x.1 < 2 ^ 32
        simp only [List.length_nil] at hd
        omega
      · intro hc
        have hl := wanted_length x.2
        have hp := hg.nonempty
        have h0 : x.2.wanted = [] := hc
        rw [h0, List.length_nil] at hl
        omega
    · rw [runs_weight]; omega

theorem trafs_ok {trex : Nat → Option Trex} {ts : List Track} {ops : List Op} (h : FragOk ts ops)
    (hid : ∀ t ∈ ts, IdOk trex t) : ∀ t ∈ ts.mapIdx (trafOf ops), TrafOk t := by
  intro x hx
  obtain ⟨i, hi⟩ := List.mem_iff_getElem?.1 hx
  rw [List.getElem?_mapIdx] at hi
  cases ht : ts[i]? with
  | none => simp [ht] at hi
  | some t =>
    simp only [ht, Option.map_some, Option.some.injEq] at hi
    rw [← hi]
    exact trafOf_ok h hid ht

theorem trafs_le {ts : List Track} {ops : List Op} (h : ∀ t ∈ ts.mapIdx (trafOf ops), TrafOk t) (b : Nat)
    (hb : b < 2 ^ 64) : ((ts.mapIdx (trafOf ops)).flatMap (trafBytes b)).length + (dataOf ops).length ≤
      68 * ts.length + (ops.map cost).sum := by
  have hw := weights_le ts.length ops
  rw [flat_length]
  have h1 := sum_le_sum _ _ _ fun t ht => trafBytes_le (h t ht) hb
  refine Nat.le_trans (Nat.add_le_add_right h1 _) ?_
  rw [sum_add, List.map_const', List.sum_replicate_nat, List.length_mapIdx]
  have e : ((ts.mapIdx (trafOf ops)).map fun t => (t.runs.map fun r => 24 + 16 * r.entries.length).sum) =
      (List.range ts.length).map fun i => ((adds i ops).map weight).sum := by
    rw [← mapIdx_range]
    apply List.ext_getElem?
    intro i
    rw [List.getElem?_map, List.getElem?_mapIdx, List.getElem?_mapIdx]
    cases ts[i]? with
    | none => rfl
    | some t => simp only [Option.map_some, runs_weight]
  rw [e]
  omega

theorem kept_eq (ts : List Track) (ops : List Op) :
    kept (ts.mapIdx (trafOf ops)) = (present ts ops).map fun x => trafOf ops x.2 x.1 := by
  unfold kept present
  rw [List.mapIdx_eq_zipIdx_map, List.filter_map]
  congr 1
  apply List.filter_congr
  intro x _
  simp only [Function.comp_apply, trafOf, ← laid_adds x.2 ops 0, List.isEmpty_map]

/-! ## The media data -/

theorem calc_ne_one {n : Nat} (h : n < 2 ^ 31) : (Mdat.calcSize n 0).1 ≠ 1 := by
  by_cases h0 : n = 0
  · subst h0; decide
  · rw [Mdat.calcSize_small (by omega) (by omega)]
    dsimp only
    omega

theorem mdat_write {m : Mdat.T} {D : Bytes} (h : Mdat.Rep m D) (hD : D.length < 2 ^ 31) :
    Mdat.writeToFile m 0 = .ok (mdatBox D) := by
  unfold mdatBox
  by_cases h0 : D = []
  · subst h0
    rw [if_pos rfl]
    unfold Mdat.writeToFile Mdat.calcSize
    rw [h.size]
    rfl
  · rw [if_neg h0, Mdat.write_ok h h0 (by omega) (by omega)]
    unfold Mdat.layout
    rw [if_pos (by omega)]

theorem mdat_serialize {m : Mdat.T} {D : Bytes} (h : Mdat.Rep m D) (hD : D.length < 2 ^ 31) :
    Mdat.serialize m 0 = .ok (mdatBox D) := by
  have hs := h.size
  have hf := h.fits
  have h1 := calc_ne_one hD
  unfold Mdat.serialize mdatBox
  rw [hs, if_neg h1]
  by_cases h0 : D = []
  · subst h0
    rfl
  · have hp := List.length_pos_iff.mpr h0
    rw [if_neg h0, Mdat.calcSize_small hp (by omega)]
    dsimp only
    rw [Nat.mod_eq_of_lt (by omega), if_pos (by omega)]
    cases hd : m.data with
    | none => have := h.null hd; omega
    | some c =>
      obtain ⟨c1, c2⟩ := h.cells c hd
      dsimp only
      rw [if_neg (by omega), c2]
      have := ((emits_serBase (8 + D.length) Mdat.typeMdat).then (Emits.thenAssert (emits_bytes D))).runW
        (size := 8 + D.length) (by simp only [List.length_append, be_length]) (by omega)
      rw [this]
      rfl

theorem mdatBox_length (D : Bytes) : (mdatBox D).length ≤ 8 + D.length := by
  unfold mdatBox
  split
  · simp
  · simp only [box, List.length_append, be_length]; omega

/-! ## One fragment -/

/-- The bytes of a fragment after `pre`. -/
def fragMoof (pre seq : Nat) (ts : List Track) (ops : List Op) : Bytes :=
  box typeMoof (moofPayload seq (pre + (24 + ((ts.mapIdx (trafOf ops)).flatMap (trafBytes 0)).length) + 8)
    (ts.mapIdx (trafOf ops)))

structure One (trex : Nat → Option Trex) (pre : Nat) (seq : Nat) (ts : List Track) (ops : List Op) : Prop where
  frag : FragOk ts ops
  ids : ∀ t ∈ ts, IdOk trex t
  seq : seq < 2 ^ 32
  room : pre + room ts ops < 2 ^ 31

theorem moof_length {trex : Nat → Option Trex} {pre seq : Nat} {ts : List Track} {ops : List Op}
    (h : One trex pre seq ts ops) :
    (fragMoof pre seq ts ops).length = 24 + ((ts.mapIdx (trafOf ops)).flatMap (trafBytes 0)).length ∧
    (fragMoof pre seq ts ops).length + 8 + (dataOf ops).length ≤ FragFile.room ts ops := by
  have hok := trafs_ok h.frag h.ids
  have hle := trafs_le hok 0 (by decide)
  have hroom := h.room
  have hl : (fragMoof pre seq ts ops).length = 24 + ((ts.mapIdx (trafOf ops)).flatMap (trafBytes 0)).length := by
    simp only [fragMoof, box, moofPayload, List.length_append, be_length, mfhd_length]
    simp only [flat_length]
    rw [length_indep hok (b := pre + (24 + ((ts.mapIdx (trafOf ops)).map fun x => (trafBytes 0 x).length).sum) + 8)
      (c := 0) ?_ (by decide)]
    · omega
    · rw [← flat_length]
      simp only [FragFile.room] at hroom
      omega
  refine ⟨hl, ?_⟩
  rw [hl]
  simp only [FragFile.room] at hroom ⊢
  omega

theorem putMoof_ok {trex : Nat → Option Trex} {pre seq : Nat} {ts : List Track} {ops : List Op}
    (h : One trex pre seq ts ops) :
    putMoof pre seq (ts.mapIdx (trafOf ops)) (Mdat.calcSize (dataOf ops).length 0).1 =
      .ok (fragMoof pre seq ts ops) := by
  have hok := trafs_ok h.frag h.ids
  obtain ⟨h1, h2⟩ := moof_length h
  have hroom := h.room
  refine putMoof_eq hok pre seq _ _ h.seq (by omega) ?_
  unfold Movie.moveUp
  rw [if_neg (calc_ne_one (by omega))]
  rw [← h1]
  have e : w32(w32(pre + (fragMoof pre seq ts ops).length) + 8) = pre + (fragMoof pre seq ts ops).length + 8 := by
    omega
  rw [e]
  unfold s32 u64i
  rw [if_pos (by omega)]
  omega

theorem drop_take_of {file pre M D rest : Bytes} (hf : file = pre ++ M ++ mdatBox D ++ rest) {off n : Nat}
    (h : off + n ≤ D.length) : (file.drop (pre.length + M.length + 8 + off)).take n = (D.drop off).take n := by
  by_cases h0 : D = []
  · subst h0
    simp at h
    obtain ⟨rfl, rfl⟩ := h
    simp
  · unfold mdatBox box at hf
    rw [if_neg h0] at hf
    subst hf
    have e : pre ++ M ++ (be 4 (8 + D.length) ++ be 4 (fcc 'm' 'd' 'a' 't') ++ D) ++ rest =
        (pre ++ M ++ (be 4 (8 + D.length) ++ be 4 (fcc 'm' 'd' 'a' 't'))) ++ (D ++ rest) := by simp
    rw [e, ← List.drop_drop]
    have hl : (pre ++ M ++ (be 4 (8 + D.length) ++ be 4 (fcc 'm' 'd' 'a' 't'))).length = pre.length + M.length + 8 := by
      simp only [List.length_append, be_length]
    rw [← hl, List.drop_left, List.drop_append_of_le_length (by omega), List.take_append_of_le_length (by simp; omega)]

theorem one_read {trex : Nat → Option Trex} {pre rest : Bytes} {seq : Nat} {ts : List Track} {ops : List Op}
    (h : One trex pre.length seq ts ops) (file : Bytes)
    (hf : file = pre ++ fragMoof pre.length seq ts ops ++ mdatBox (dataOf ops) ++ rest) :
    ∃ founds, openAt trex file pre.length = .ok (some ⟨0, 0, seq⟩, (fragMoof pre.length seq ts ops).length, founds) ∧
      Each (TrackIs file ops) founds (present ts ops) := by
  have hok := trafs_ok h.frag h.ids
  obtain ⟨h1, h2⟩ := moof_length h
  have hroom := h.room
  have hd : file.drop pre.length = fragMoof pre.length seq ts ops ++ (mdatBox (dataOf ops) ++ rest) := by
    rw [hf]; simp [List.append_assoc]
  generalize hb : pre.length + (24 + ((ts.mapIdx (trafOf ops)).flatMap (trafBytes 0)).length) + 8 = b
  have hM : fragMoof pre.length seq ts ops = box typeMoof (moofPayload seq b (ts.mapIdx (trafOf ops))) := by
    unfold fragMoof; rw [hb]
  have hb2 : b < 2 ^ 31 := by omega
  have hl : 8 + (moofPayload seq b (ts.mapIdx (trafOf ops))).length = (fragMoof pre.length seq ts ops).length := by
    rw [hM]; simp only [box, List.length_append, be_length]
  have hp := parse_moof hok (b := b) h.seq (by omega) (by omega) (mdatBox (dataOf ops) ++ rest)
  unfold openAt
  rw [hd, hM, hp]
  dsimp only
  unfold moofBack
  rw [gather_eq trex pre.length b (by omega), bind_ok]
  · refine ⟨_, by rw [← hM, hl], ?_⟩
    rw [kept_eq, List.map_map]
    refine ⟨by simp, fun k x y hx hy => ?_⟩
    rw [List.getElem?_map, hy] at hx
    simp only [Option.map_some, Option.some.injEq, Function.comp_apply] at hx
    subst hx
    refine ⟨rfl, rfl, ?_⟩
    unfold trafOf
    dsimp only
    rw [← laid_adds y.2 ops 0, List.map_map]
    refine ⟨by simp, fun k r s hr hs => ?_⟩
    rw [List.getElem?_map] at hr hs
    cases hx : (laid y.2 0 ops)[k]? with
    | none => simp [hx] at hr
    | some x =>
      simp only [hx, Option.map_some, Option.some.injEq] at hr hs
      subst hr hs
      have hm := List.mem_of_getElem? hx
      obtain ⟨hle, hdat⟩ := laid_data y.2 ops [] x hm
      simp only [List.length_nil, List.nil_append, Nat.zero_add] at hle hdat
      refine ⟨rfl, ?_⟩
      have e : (((b : Int) + s32 (runOf x).dataOffset) % 2 ^ 64).toNat = pre.length + (fragMoof pre.length seq ts ops).length + 8 + x.1 := by
        have : s32 (runOf x).dataOffset = x.1 := by
          unfold s32 runOf
          dsimp only
          rw [if_pos (by omega)]
        rw [this]
        omega
      simp only [Function.comp_apply]
      rw [e, drop_take_of hf hle.2, hdat]
  · intro t ht
    rw [kept_eq] at ht
    obtain ⟨y, hy, rfl⟩ := List.mem_map.1 ht
    obtain ⟨hy, hne⟩ := List.mem_filter.1 hy
    have hz : ts[y.2]? = some y.1 := by
      obtain ⟨t, i⟩ := y
      exact List.mem_zipIdx_iff_getElem?.1 hy
    have ho := h.ids y.1 (List.mem_of_getElem? hz)
    refine ⟨?_, by have := ho.pos; show y.1.id ≠ 0; omega, ho.known⟩
    rcases trafOf_ok h.frag h.ids hz with hr | hr
    · exfalso
      unfold trafOf at hr
      have : adds y.2 ops = [] := by
        rw [← laid_adds y.2 ops 0]
        simpa using hr
      simp [this] at hne
    · exact hr

/-! ## All fragments -/

/-- The fragments as they are written after `pre` bytes. -/
def laidOut : Nat → Nat → List Track → List (List Op) → Bytes
  | _, _, _, [] => []
  | pre, seq, ts, f :: fs => fragMoof pre seq ts f ++ (mdatBox (dataOf f) ++
      laidOut (pre + (fragMoof pre seq ts f).length + (mdatBox (dataOf f)).length) (seq + 1) (advance ts f) fs)

theorem InRange.one {trex : Nat → Option Trex} {pre : Bytes} {seq : Nat} {ts : List Track} {f : List Op}
    {gs : List (List Op)} (h : InRange trex pre seq ts (f :: gs)) : One trex pre.length seq ts f := by
  refine ⟨⟨h.ops f (by simp), ?_, fun i t ht => ?_⟩, fun t ht => ?_, ?_, ?_⟩
  · have := h.room; simp only [List.map_cons, List.sum_cons] at this; omega
  · have := h.time i t ht; simp only [List.map_cons, List.sum_cons] at this; omega
  · obtain ⟨a, b, c, d⟩ := h.ids t ht; exact ⟨a, b, c, d⟩
  · have := h.seq; simp only [List.length_cons] at this; omega
  · have := h.room; simp only [List.map_cons, List.sum_cons] at this; omega

theorem advance_get {ts : List Track} {f : List Op} {i : Nat} {t : Track} (h : (advance ts f)[i]? = some t) :
    ∃ x, ts[i]? = some x ∧ t = { x with time := x.time + delays f + spent i f } := by
  unfold advance at h
  rw [List.getElem?_mapIdx] at h
  cases hx : ts[i]? with
  | none => simp [hx] at h
  | some x =>
    simp only [hx, Option.map_some, Option.some.injEq] at h
    exact ⟨x, rfl, h.symm⟩

theorem InRange.next {trex : Nat → Option Trex} {pre : Bytes} {seq : Nat} {ts : List Track} {f : List Op}
    {gs : List (List Op)} (h : InRange trex pre seq ts (f :: gs)) :
    InRange trex (pre ++ (fragMoof pre.length seq ts f ++ mdatBox (dataOf f))) (seq + 1) (advance ts f) gs := by
  obtain ⟨h1, h2⟩ := moof_length h.one
  have hbl := mdatBox_length (dataOf f)
  have hlen : (advance ts f).length = ts.length := by simp [advance]
  have hrm : FragFile.room (advance ts f) = FragFile.room ts := by
    funext o; simp only [FragFile.room, hlen]
  refine ⟨fun x hx op ho => ?_, ?_, ?_, fun i t ht => ?_, fun t ht => ?_⟩
  · have := h.ops x (List.mem_cons_of_mem _ hx) op ho
    cases op with
    | delay d => trivial
    | add i s => exact ⟨by rw [hlen]; exact this.1, this.2⟩
  · have := h.room
    rw [hrm]
    simp only [List.map_cons, List.sum_cons, List.length_append] at this ⊢
    omega
  · have := h.seq; simp only [List.length_cons] at this ⊢; omega
  · obtain ⟨x, hx, rfl⟩ := advance_get ht
    have := h.time i x hx
    simp only [List.map_cons, List.sum_cons] at this ⊢
    omega
  · obtain ⟨i, hi⟩ := List.mem_iff_getElem?.1 ht
    obtain ⟨x, hx, rfl⟩ := advance_get hi
    exact h.ids x (List.mem_of_getElem? hx)

theorem next_length (pre : Bytes) (seq : Nat) (ts : List Track) (f : List Op) :
    (pre ++ (fragMoof pre.length seq ts f ++ mdatBox (dataOf f))).length =
      pre.length + (fragMoof pre.length seq ts f).length + (mdatBox (dataOf f)).length := by
  simp [Nat.add_assoc]

theorem build_eq (trex : Nat → Option Trex) (junk : Nat → UInt8) : ∀ (gs : List (List Op)) (f : List Op)
    (pre : Bytes) (seq : Nat) (ts : List Track), InRange trex pre seq ts (f :: gs) →
    build junk (fresh pre seq ts) f gs = .ok (pre ++ laidOut pre.length seq ts (f :: gs)) := by
  intro gs
  induction gs with
  | nil =>
    intro f pre seq ts h
    have one := h.one
    obtain ⟨h1, h2⟩ := moof_length one
    have hroom := one.room
    rw [fresh_eq]
    obtain ⟨m, e1, e2⟩ := steps_ok junk (pre := pre) (seq := seq) (ts := ts) f [] Mdat.create one.frag Mdat.rep_create
    rw [List.nil_append] at e1 e2
    unfold build
    rw [e1, bind_ok]
    unfold finish stOf
    dsimp only
    rw [e2.size, putMoof_ok one, bind_ok, mdat_write e2 (by omega), bind_ok]
    simp only [laidOut, List.append_nil]
  | cons g gs ih =>
    intro f pre seq ts h
    have one := h.one
    obtain ⟨h1, h2⟩ := moof_length one
    have hroom := one.room
    obtain ⟨m, e1, e2⟩ := steps_ok junk (pre := pre) (seq := seq) (ts := ts) f [] Mdat.create one.frag Mdat.rep_create
    rw [List.nil_append] at e1 e2
    unfold build
    rw [fresh_eq, e1, bind_ok]
    have hst : start (stOf pre seq ts f m) =
        .ok (fresh (pre ++ (fragMoof pre.length seq ts f ++ mdatBox (dataOf f))) (seq + 1) (advance ts f)) := by
      unfold start put stOf
      dsimp only
      rw [e2.size, if_neg (calc_ne_one (by omega)), putMoof_ok one, bind_ok, mdat_serialize e2 (by omega), bind_ok, bind_ok]
      have := h.seq
      simp only [List.length_cons] at this
      rw [Nat.mod_eq_of_lt (by omega)]
      rfl
    rw [hst, bind_ok, ih g _ _ _ h.next, next_length]
    conv => rhs; rw [laidOut]
    simp only [List.append_assoc]

theorem written (trex : Nat → Option Trex) : ∀ (fs : List (List Op)) (pre : Bytes) (seq : Nat) (ts : List Track),
    InRange trex pre seq ts fs → Written trex (pre ++ laidOut pre.length seq ts fs) pre.length seq ts fs := by
  intro fs
  induction fs with
  | nil => intro pre seq ts _; simp [Written, laidOut]
  | cons f fs ih =>
    intro pre seq ts h
    have b2 := ih _ _ _ h.next
    rw [next_length] at b2
    have hfile : pre ++ laidOut pre.length seq ts (f :: fs) =
        pre ++ (fragMoof pre.length seq ts f ++ mdatBox (dataOf f)) ++
          laidOut (pre.length + (fragMoof pre.length seq ts f).length + (mdatBox (dataOf f)).length) (seq + 1)
            (advance ts f) fs := by
      simp only [laidOut, List.append_assoc]
    rw [hfile]
    generalize laidOut (pre.length + (fragMoof pre.length seq ts f).length + (mdatBox (dataOf f)).length) (seq + 1)
            (advance ts f) fs = rest at b2
    obtain ⟨founds, r1, r2⟩ := one_read (rest := rest) h.one
      (pre ++ (fragMoof pre.length seq ts f ++ mdatBox (dataOf f)) ++ rest) (by simp [List.append_assoc])
    refine ⟨_, founds, r1, r2, ?_, b2⟩
    rw [← List.length_append, ← List.append_assoc, List.append_assoc, List.drop_left]
    simp

/-- **C56.** Fragments are made one after the other, each by any calls that add samples to tracks and any
delays, after anything that was written before. Then writing succeeds, what was there is kept, and behind
it the file holds the fragments in order with increasing numbers, each followed by its data; reading one
gives, for exactly the tracks with samples in it, the track, its decode time, and for each call that added
samples a run with these samples and the place where their data is in the file.

Missing for the full claim: padding values (`c56_not_padding`), decode times from 2^32
(`c56_not_time`), calls without samples (`c56_not_empty`), and files from 2 GB (`c56_not_far_run`,
`c56_not_far_base`). -/
theorem c56_found_partial (trex : Nat → Option Trex) (junk : Nat → UInt8) (pre : Bytes) (seq : Nat) (ts : List Track)
    (f : List Op) (gs : List (List Op)) (h : InRange trex pre seq ts (f :: gs)) :
    ∃ rest, build junk (fresh pre seq ts) f gs = .ok (pre ++ rest) ∧
      Written trex (pre ++ rest) pre.length seq ts (f :: gs) :=
  ⟨_, build_eq trex junk gs f pre seq ts h, written trex (f :: gs) pre seq ts h⟩

theorem sum_take_le (l : List Nat) : ∀ k v, l[k]? = some v → (l.take k).sum + v ≤ l.sum := by
  induction l with
  | nil => intro k v h; simp at h
  | cons a l ih =>
    intro k v h
    cases k with
    | zero => simp at h; subst h; simp
    | succ k =>
      have := ih k v (by simpa using h)
      simp only [List.take_succ_cons, List.sum_cons]
      omega

/-- The same for each sample: its bytes are found behind those of the samples before it in the run. -/
theorem c56_sample {file : Bytes} {r : Nat × List Entry} {s : Samples} (h : RunIs file r s) (hs : s.Good)
    {k : Nat} {e : Entry} (he : r.2[k]? = some e) :
    (file.drop (r.1 + ((s.wanted.take k).map Entry.size).sum)).take e.size =
      (s.data.drop ((s.wanted.take k).map Entry.size).sum).take e.size ∧
    ((s.wanted.take k).map Entry.size).sum + e.size ≤ s.data.length := by
  obtain ⟨h1, h2⟩ := h
  rw [h1] at he
  have hle : ((s.wanted.take k).map Entry.size).sum + e.size ≤ s.data.length := by
    rw [← hs.data, List.map_take]
    exact sum_take_le _ k e.size (by rw [List.getElem?_map, he]; rfl)
  refine ⟨?_, hle⟩
  conv => rhs; rw [← h2]
  rw [List.drop_take, List.take_take, Nat.min_eq_left (by omega), List.drop_drop]

/-! ## A movie that meets the conditions -/

namespace Example

/-- Two sync samples and one other with composition offsets; one duration for all. -/
def video : Samples := ⟨[1, 2, 3, 4, 5, 6], 3, [1000], [3, 1, 2], some [0, 2000, 1000], some [3, 1], none, []⟩
def audio : Samples := ⟨[7, 8, 9, 10], 2, [1024, 1000], [2], none, none, none, []⟩

def tracks : List Track := [⟨⟨1, 0, 0, 0⟩, 1, 0⟩, ⟨⟨1, 1024, 0, 0⟩, 7, 5⟩]

def trex : Nat → Option Trex
  | 1 => some ⟨1, 0, 0, 0⟩
  | 7 => some ⟨1, 1024, 0, 0⟩
  | _ => none

/-- The second fragment has nothing for the first track; there is a delay. -/
def frags : List (List Op) := [[.add 0 video, .add 1 audio, .add 0 video], [.delay 50, .add 1 audio], []]

theorem video_good : video.Good :=
  ⟨by decide, .inr rfl, .inl rfl, by intro l h; cases h; rfl, by intro l h; cases h; decide, rfl,
    ⟨by decide, by decide, by intro l h; cases h; decide⟩, by decide⟩

theorem audio_good : audio.Good :=
  ⟨by decide, .inl rfl, .inr rfl, by (intro l h; cases h), by (intro l h; cases h), rfl,
    ⟨by decide, by decide, by (intro l h; cases h)⟩, by decide⟩

theorem inRange : InRange trex (List.replicate 100 0) 1 tracks frags := by
  refine ⟨?_, by decide +kernel, by decide, ?_, by decide⟩
  · intro f hf op ho
    simp only [frags, List.mem_cons, List.not_mem_nil, or_false] at hf
    rcases hf with rfl | rfl | rfl <;> simp only [List.mem_cons, List.not_mem_nil, or_false] at ho
    · rcases ho with rfl | rfl | rfl
      · exact ⟨by decide, video_good⟩
      · exact ⟨by decide, audio_good⟩
      · exact ⟨by decide, video_good⟩
    · rcases ho with rfl | rfl
      · trivial
      · exact ⟨by decide, audio_good⟩
  · intro i t ht
    match i with
    | 0 => cases ht; decide +kernel
    | 1 => cases ht; decide +kernel
    | i + 2 => simp [tracks] at ht

/-- The samples asked for in the first call. -/
example : video.wanted = [⟨1000, 3, 0, 0⟩, ⟨1000, 1, 0x10000, 2000⟩, ⟨1000, 2, 0, 1000⟩] := by decide

example : (present tracks [.delay 50, .add 1 audio]).map (·.2) = [1] := by decide

end Example

/-! ## What the code gets wrong -/

/-- The padding values that are asked for have no effect: the code reads the bytes of the handle itself
(TrackFragmentAtom.c 197). -/
theorem c56_not_padding (junk : Nat → UInt8) (st : St) (i : Nat) (s : Samples) (p q : Bytes) :
    addSamples junk st i { s with pads := some p } = addSamples junk st i { s with pads := some q } := rfl

theorem time_mod : ∀ (es : List Entry) (t : Nat), t < 4294967296 →
    es.foldl (fun t e => w32(t + e.duration)) t = (t + (es.map Entry.duration).sum) % 4294967296 := by
  intro es
  induction es with
  | nil => intro t h; simp; omega
  | cons e es ih =>
    intro t h
    rw [List.foldl_cons, ih _ (Nat.mod_lt _ (by decide))]
    simp only [List.map_cons, List.sum_cons]
    omega

/-- When the durations of a track reach 2^32, the decode time of its next fragment starts again from 0,
and is not the sum of the durations. -/
theorem c56_not_time (junk : Nat → UInt8) {pre : Bytes} {seq : Nat} {ts : List Track} {i : Nat} {t : Track}
    {s : Samples} (ht : ts[i]? = some t) (h32 : t.time < 2 ^ 32) (hs : s.Good) (hc : s.count < 2 ^ 32)
    (hd : s.data.length < 2 ^ 63) (hover : 2 ^ 32 ≤ t.time + (s.wanted.map Entry.duration).sum) :
    ∃ st t', addSamples junk (fresh pre seq ts) i s = .ok st ∧ st.tracks[i]? = some t' ∧
      t'.time = (t.time + (s.wanted.map Entry.duration).sum) % 2 ^ 32 ∧
      t'.time < t.time + (s.wanted.map Entry.duration).sum := by
  have hi : i < ts.length := (List.getElem?_eq_some_iff.1 ht).1
  obtain ⟨m', e1, -, -⟩ := Mdat.addData_ok junk (bs := s.data) Mdat.rep_create (by simpa using hd)
  unfold addSamples fresh makeTrafs
  simp only [List.getElem?_map, ht, Option.map_some, e1, bind_ok, entriesOf_eq hs hc]
  refine ⟨_, _, rfl, List.getElem?_set_self hi, ?_, ?_⟩
  · dsimp only
    rw [time_mod _ _ h32]
  · dsimp only
    rw [time_mod _ _ h32]
    omega

/-- A track at 5, and a sample that lasts 2^32 - 1. -/
def Example.long : Samples := ⟨[1], 1, [4294967295], [1], none, none, none, []⟩

example : Example.tracks[1]? = some ⟨⟨1, 1024, 0, 0⟩, 7, 5⟩ ∧ Example.long.Good ∧
    2 ^ 32 ≤ 5 + (Example.long.wanted.map Entry.duration).sum :=
  ⟨rfl, ⟨by decide, .inl rfl, .inl rfl, by (intro l h; cases h), by (intro l h; cases h), rfl,
    ⟨by decide, by decide, by (intro l h; cases h)⟩, by decide⟩, by decide⟩

theorem prepare_cases (t : Traf.Traf) : (∃ x, Traf.prepare t = .ok x) ∨ Traf.prepare t = .ub := by
  have hall : ∀ (g : Tfhd) (rs : List Run), (∃ x, Traf.setAllFlags g rs = .ok x) ∨ Traf.setAllFlags g rs = .ub := by
    intro g rs
    induction rs with
    | nil => exact .inl ⟨[], rfl⟩
    | cons r rs ih =>
      rw [Traf.setAllFlags]
      by_cases hr : r.entries = []
      · have : Traf.setFlags g r = .ub := by unfold Traf.setFlags; rw [hr]
        rw [this]
        exact .inr rfl
      · rw [Traf.setFlags_eq g r hr, Res.ok_bind]
        rcases ih with ⟨x, e⟩ | e
        · rw [e]; exact .inl ⟨_, rfl⟩
        · rw [e]; exact .inr rfl
  unfold Traf.prepare
  dsimp only
  by_cases h : t.runs = []
  · rw [if_pos h]; exact .inl ⟨_, rfl⟩
  · rw [if_neg h]
    rcases hall (Traf.defaults t.tfhd t.runs) t.runs with ⟨x, e⟩ | e
    · rw [e]; exact .inl ⟨_, rfl⟩
    · rw [e]; exact .inr rfl

theorem prepare_ub {t : Traf.Traf} (h : ∃ r ∈ t.runs, r.entries = []) : Traf.prepare t = .ub := by
  have := Traf.c28_empty_run t h
  rcases prepare_cases t with ⟨x, e⟩ | e
  · exfalso
    unfold Traf.prepare at e
    obtain ⟨r, hr, he⟩ := h
    have hne : t.runs ≠ [] := List.ne_nil_of_mem hr
    dsimp only at e
    rw [if_neg hne] at e
    obtain ⟨rs, e1, -⟩ := Res.bind_eq_ok.1 e
    have : ∀ (g : Tfhd) (l l' : List Run), Traf.setAllFlags g l = .ok l' → ∀ r ∈ l, r.entries ≠ [] := by
      intro g l
      induction l with
      | nil => intro l' _ r hr; simp at hr
      | cons a l ih =>
        intro l' hl r hr
        rw [Traf.setAllFlags] at hl
        obtain ⟨a', ha, hl⟩ := Res.bind_eq_ok.1 hl
        obtain ⟨b', hb, -⟩ := Res.bind_eq_ok.1 hl
        rcases List.mem_cons.1 hr with rfl | hr
        · intro hc
          unfold Traf.setFlags at ha
          rw [hc] at ha
          cases ha
        · exact ih b' hb r hr
    exact this _ _ _ e1 r hr he
  · exact e

/-- A call that adds no samples: writing the fragment reads the first entry of the run, which does not
exist. -/
theorem c56_not_empty (junk : Nat → UInt8) {pre : Bytes} {seq : Nat} {ts : List Track} {i : Nat} {s : Samples}
    (hi : i < ts.length) (hc : s.count = 0) (hs : s.syncs = none) (hd : s.data = []) :
    build junk (fresh pre seq ts) [.add i s] [] = .ub := by
  have ht : ts[i]? = some ts[i] := List.getElem?_eq_getElem hi
  have he : entriesOf s = .ok [] := by
    unfold entriesOf
    rw [hc, hs]
    rfl
  unfold build steps step
  simp only
  unfold addSamples
  have hm : Mdat.addData junk (fresh pre seq ts).mdat s.data = .ok Mdat.create := by
    rw [hd]; rfl
  have g1 : (fresh pre seq ts).trafs[i]? = some ⟨ts[i].trex, ⟨0, 0, ts[i].id, 0, ts[i].trex.descIndex, 0, 0, 0⟩,
      some ⟨0, 0, ts[i].time⟩, []⟩ := by
    simp only [fresh, makeTrafs, List.getElem?_map, ht, Option.map_some]
  have g2 : (fresh pre seq ts).tracks[i]? = some ts[i] := ht
  rw [g1, g2]
  dsimp only
  rw [hm, bind_ok, he, bind_ok, bind_ok]
  unfold steps
  rw [bind_ok]
  unfold finish putMoof
  have key : ∀ (l : List Traf.Traf), (∃ t ∈ l, ∃ r ∈ t.runs, r.entries = []) → Movie.mapRes Traf.prepare l = .ub := by
    intro l
    induction l with
    | nil => rintro ⟨t, ht, _⟩; simp at ht
    | cons a l ih =>
      rintro ⟨t, ht, hr⟩
      rw [Movie.mapRes]
      rcases prepare_cases a with ⟨x, e⟩ | e
      · rw [e, bind_ok]
        rcases List.mem_cons.1 ht with rfl | ht
        · rw [prepare_ub hr] at e; cases e
        · rw [ih ⟨t, ht, hr⟩]; rfl
      · rw [e]; rfl
  dsimp only
  rw [key]
  · rfl
  · have hlt : i < (fresh pre seq ts).trafs.length := by simpa [fresh, makeTrafs] using hi
    exact ⟨_, List.mem_of_getElem? (List.getElem?_set_self hlt), _, List.mem_append_right _ (List.mem_singleton.2 rfl), rfl⟩

example : build (fun _ => 0) (fresh [] 1 Example.tracks) [.add 1 ⟨[], 0, [], [], none, none, none, []⟩] [] = .ub :=
  c56_not_empty _ (by decide) rfl rfl rfl

/-- A run whose data begins 2 GB or more behind the start of the fragment's data: its offset is a signed
number of 32 bits, and it is found 4 GB too low. -/
theorem c56_not_far_run (junk : Nat → UInt8) {st st' : St} {i : Nat} {s : Samples} {D : Bytes}
    (hm : Mdat.Rep st.mdat D) (h31 : 2 ^ 31 ≤ D.length) (h32 : D.length < 2 ^ 32)
    (ha : addSamples junk st i s = .ok st') (h : Tfhd) (hb : 2 ^ 31 ≤ h.base) (hb2 : h.base < 2 ^ 63) :
    ∃ t r, st'.trafs[i]? = some t ∧ t.runs.getLast? = some r ∧
      (Traf.place h r : Int) = h.base + D.length - 2 ^ 32 := by
  unfold addSamples at ha
  cases ht : st.trafs[i]? with
  | none => simp [ht] at ha
  | some t =>
    cases hk : st.tracks[i]? with
    | none => simp [ht, hk] at ha
    | some k =>
      rw [ht, hk] at ha
      dsimp only at ha
      cases h1 : Mdat.addData junk st.mdat s.data with
      | err e => rw [h1] at ha; cases ha
      | ub => rw [h1] at ha; cases ha
      | ok m =>
        rw [h1, bind_ok] at ha
        cases h2 : entriesOf s with
        | err e => rw [h2] at ha; cases ha
        | ub => rw [h2] at ha; cases ha
        | ok es =>
          rw [h2, bind_ok] at ha
          injection ha with ha
          subst ha
          refine ⟨_, _, List.getElem?_set_self (List.getElem?_eq_some_iff.1 ht).1, List.getLast?_concat, ?_⟩
          unfold Traf.place u64i s32
          dsimp only
          rw [hm.size, Nat.mod_eq_of_lt h32, if_neg (by omega)]
          omega

/-- When the data of a fragment begins 2 GB or more into the file (and below 4 GB), the base that is
written and read again is 2^64 - 2^32 too high: the distance is passed as a signed number of 32 bits. -/
theorem c56_not_far_base {trafs : List Traf.Traf} (h : ∀ t ∈ trafs, Traf.Fits t) (pre seq mdat : Nat)
    (hseq : seq < 2 ^ 32) (h31 : 2 ^ 31 ≤ pre + 32 + (trafs.flatMap (trafBytes 0)).length)
    (h32 : pre + 32 + (trafs.flatMap (trafBytes 0)).length < 2 ^ 32) (hm : mdat ≠ 1) :
    ∃ bs m hd, putMoof pre seq trafs mdat = .ok bs ∧ parseAtom parse bs = .ok (m, hd, []) ∧
      m.trafs.length = trafs.length ∧ ∀ t ∈ m.trafs, ∃ r x, t = some r ∧ r.tfhd = some x ∧
        x.base = pre + bs.length + 8 + (2 ^ 64 - 2 ^ 32) := by
  have hok : ∀ t ∈ trafs, TrafOk t := fun t ht => .inr (h t ht)
  generalize hb : u64i (s32 (Movie.moveUp pre (24 + (trafs.flatMap (trafBytes 0)).length) mdat)) = b
  have hbv : b = pre + 32 + (trafs.flatMap (trafBytes 0)).length + (2 ^ 64 - 2 ^ 32) := by
    rw [← hb]
    unfold Movie.moveUp
    rw [if_neg hm]
    have e : w32(w32(pre + (24 + (trafs.flatMap (trafBytes 0)).length)) + 8) =
        pre + 32 + (trafs.flatMap (trafBytes 0)).length := by omega
    rw [e]
    unfold s32 u64i
    rw [if_neg (by omega)]
    omega
  have hb64 : b < 2 ^ 64 := by omega
  have hw := putMoof_eq hok pre seq mdat b hseq (by omega) hb.symm
  have hfl : (trafs.flatMap (trafBytes b)).length = (trafs.flatMap (trafBytes 0)).length := by
    rw [flat_length, flat_length, length_indep hok hb64 (show 0 < 2 ^ 64 by decide)]
  have hpl : (moofPayload seq b trafs).length = 16 + (trafs.flatMap (trafBytes 0)).length := by
    simp only [moofPayload, List.length_append, mfhd_length, hfl]
  have hbl : (box typeMoof (moofPayload seq b trafs)).length = 24 + (trafs.flatMap (trafBytes 0)).length := by
    simp only [box, List.length_append, be_length, hpl]; omega
  have hp := parse_moof hok hseq hb64 (by omega) []
  rw [List.append_nil] at hp
  have hk : kept trafs = trafs := by
    unfold kept
    rw [List.filter_eq_self]
    intro t ht
    simpa using (h t ht).some
  refine ⟨_, _, _, hw, hp, by simp [moofBack, hk], ?_⟩
  intro r hr
  unfold moofBack at hr
  rw [hk] at hr
  obtain ⟨t, ht, rfl⟩ := List.mem_map.1 hr
  refine ⟨_, _, rfl, rfl, ?_⟩
  have hf := rebase_fits (h t ht) hb64
  have hkb : (Traf.head (rebase b t)).base = b := (Traf.defaults_keeps (rebase b t).tfhd hf.runs).base
  have hfl : has (Traf.head (rebase b t)).flags 1 = true := by
    have := (Traf.henc_has ((rebase b t).trex.descIndex != (Traf.defaults (rebase b t).tfhd (rebase b t).runs).descIndex)
      ((rebase b t).trex.duration != (Traf.defaults (rebase b t).tfhd (rebase b t).runs).duration)
      ((rebase b t).trex.size != (Traf.defaults (rebase b t).tfhd (rebase b t).runs).size)
      ((rebase b t).trex.sampleFlags != (Traf.defaults (rebase b t).tfhd (rebase b t).runs).sampleFlags)).1
    rw [← Traf.tfhdFlags_eq] at this
    exact this
  unfold Traf.hseen
  dsimp only
  rw [if_pos hfl, hkb, hbl, hbv]
  omega

end Verif.FragFile
