import Verif.Spec.Tree
import Verif.Lemmas.Box

namespace Verif.Tree

theorem rd32_inv {inp r : Bytes} {v : Nat} (h : rd32 inp = .ok (v, r)) :
    inp = be 4 v ++ r ∧ v < 4294967296 := by
  match inp with
  | [] | [_] | [_, _] | [_, _, _] => simp [rd32] at h
  | a :: b :: c :: d :: r' =>
    have e := be_unbe [a, b, c, d]
    have hl := unbe_lt [a, b, c, d]
    simp only [List.length_cons, List.length_nil] at e hl
    have e2 : a :: b :: c :: d :: r' = be 4 (unbe [a, b, c, d]) ++ r' := by rw [e]; rfl
    rw [e2, rd32_be, Nat.mod_eq_of_lt (by simpa using hl)] at h
    simp only [Res.ok.injEq, Prod.mk.injEq] at h
    obtain ⟨rfl, rfl⟩ := h
    exact ⟨e2, by simpa using hl⟩

theorem rd32_not_ub (inp : Bytes) : rd32 inp ≠ .ub := by
  match inp with
  | [] | [_] | [_, _] | [_, _, _] => simp [rd32]
  | a :: b :: c :: d :: r' => rw [rd32_cons]; simp

/-- What a successful header parse says about the bytes. -/
theorem parseHeader_inv {inp r : Bytes} {h : Hdr} (hl : inp.length < 4294967296)
    (hp : parseHeader inp = .ok (h, r)) :
    (h.size = 1 ∧ 16 ≤ h.hlen ∧ h.hlen ≤ 32 ∧ h.hlen + r.length ≤ inp.length) ∨
    (∃ zero : Bool, inp = be 4 (if zero then 0 else h.size) ++ be 4 h.type ++ h.uuid ++ r ∧
      h.type < 4294967296 ∧ h.uuid.length = (if h.type = typeUuid then 16 else 0) ∧
      h.hlen = 8 + h.uuid.length ∧ h.hlen ≤ h.size ∧ h.size ≤ inp.length ∧
      (zero = true → h.size = inp.length)) := by
  unfold parseHeader at hp
  obtain ⟨⟨size0, r1⟩, e1, hp2⟩ := Res.bind_eq_ok.1 hp
  clear hp; have hp := hp2; clear hp2
  obtain ⟨rfl, hs0⟩ := rd32_inv e1
  simp only [List.length_append, be_length] at hl
  have hthe : r1.length + 4 < 4294967296 := by omega
  simp only [hthe, if_true] at hp
  generalize hsz : (if size0 = 0 then r1.length + 4 else size0) = size at hp
  by_cases hc : size ≠ 1 ∧ (size + 4294967292) % 4294967296 > r1.length
  · rw [if_pos hc] at hp; cases hp
  rw [if_neg hc] at hp
  obtain ⟨⟨type, r2⟩, e2, hp2⟩ := Res.bind_eq_ok.1 hp
  clear hp; have hp := hp2; clear hp2
  obtain ⟨rfl, ht⟩ := rd32_inv e2
  obtain ⟨⟨uuid, r3, n⟩, e3, hp2⟩ := Res.bind_eq_ok.1 hp
  clear hp; have hp := hp2; clear hp2
  have hu : r2 = uuid ++ r3 ∧ uuid.length = (if type = typeUuid then 16 else 0) ∧ n = 8 + uuid.length := by
    dsimp only at e3
    split at e3
    · split at e3
      · cases e3
      · rename_i hty hlen
        simp only [Res.ok.injEq, Prod.mk.injEq] at e3
        obtain ⟨rfl, rfl, rfl⟩ := e3
        rw [if_pos hty]
        simp; omega
    · rename_i hty
      simp only [Res.ok.injEq, Prod.mk.injEq] at e3
      obtain ⟨rfl, rfl, rfl⟩ := e3
      simp [hty]
  obtain ⟨rfl, hul, rfl⟩ := hu
  obtain ⟨⟨s64, r4, n4⟩, e4, hp2⟩ := Res.bind_eq_ok.1 hp
  clear hp; have hp := hp2; clear hp2
  simp only [List.length_append, be_length] at hc hl hsz
  dsimp only at hp e4
  by_cases hn : size ≠ 1 ∧ size < n4
  · rw [if_pos hn] at hp; cases hp
  rw [if_neg hn] at hp
  simp only [Res.ok.injEq, Prod.mk.injEq] at hp
  obtain ⟨rfl, rfl⟩ := hp
  by_cases h1 : size = 1
  · left
    simp only [h1, if_true] at e4
    obtain ⟨⟨hi, r5⟩, e5, e7⟩ := Res.bind_eq_ok.1 e4
    clear e4
    obtain ⟨rfl, _⟩ := rd32_inv e5
    obtain ⟨⟨lo, r6⟩, e6, e4⟩ := Res.bind_eq_ok.1 e7
    clear e7
    obtain ⟨rfl, _⟩ := rd32_inv e6
    simp only [Res.ok.injEq, Prod.mk.injEq] at e4
    obtain ⟨_, rfl, rfl⟩ := e4
    simp only [List.length_append, be_length]
    refine ⟨h1, by omega, ?_, by omega⟩
    split at hul <;> omega
  · right
    rw [if_neg h1] at e4
    simp only [Res.ok.injEq, Prod.mk.injEq] at e4
    obtain ⟨_, rfl, rfl⟩ := e4
    refine ⟨size0 == 0, ?_, ht, hul, rfl, by dsimp only; omega, ?_, ?_⟩
    · have : (if (size0 == 0) = true then 0 else size) = size0 := by
        by_cases h0 : size0 = 0
        · simp [h0]
        · simp only [h0, if_false] at hsz; simp [hsz]; omega
      dsimp only
      rw [this]; simp
    · simp only [List.length_append, be_length]
      by_cases h0 : size0 = 0
      · rw [if_pos h0] at hsz; omega
      · rw [if_neg h0] at hsz; omega
    · intro h0
      rw [if_pos (by simpa using h0)] at hsz
      simp only [List.length_append, be_length]
      omega

/-- The header of a box whose payload is there. -/
theorem parseHeader_fwd {size type : Nat} {zero : Bool} {uuid : Bytes} (hs : size < 4294967296)
    (ht : type < 4294967296) (hu : uuid.length = (if type = typeUuid then 16 else 0)) (r : Bytes)
    (h8 : 8 + uuid.length ≤ size) (hr : size ≤ 8 + uuid.length + r.length)
    (hz : zero = true → size = 8 + uuid.length + r.length) :
    parseHeader (be 4 (if zero then 0 else size) ++ be 4 type ++ uuid ++ r) =
      .ok (⟨size, type, uuid, 0, 8 + uuid.length⟩, r) := by
  unfold parseHeader
  have e0 : be 4 (if zero then 0 else size) ++ be 4 type ++ uuid ++ r =
      be 4 (if zero then 0 else size) ++ (be 4 type ++ (uuid ++ r)) := by simp
  rw [e0, rd32_be, Res.ok_bind]
  have e1 : (if zero then 0 else size) % 4294967296 = (if zero then 0 else size) := by
    apply Nat.mod_eq_of_lt; split <;> omega
  have e2 : (if (if zero then 0 else size) = 0 then
      (if (be 4 type ++ (uuid ++ r)).length + 4 < 4294967296 then (be 4 type ++ (uuid ++ r)).length + 4 else 1)
      else (if zero then 0 else size)) = size := by
    simp only [List.length_append, be_length]
    cases zero with
    | true =>
      have := hz rfl
      rw [if_pos (by simp), if_pos (by omega)]; omega
    | false => simp; omega
  simp only [e1, e2]
  rw [if_neg (by simp only [List.length_append, be_length]; omega), rd32_be, Res.ok_bind]
  simp only [Nat.mod_eq_of_lt ht]
  have e3 : (if type = typeUuid then
      (if (uuid ++ r).length < 16 then .err .ioErr
        else .ok ((uuid ++ r).take 16, (uuid ++ r).drop 16, 24))
    else .ok ([], uuid ++ r, 8) : Res (Bytes × Bytes × Nat)) = .ok (uuid, r, 8 + uuid.length) := by
    by_cases hty : type = typeUuid
    · rw [if_pos hty] at hu ⊢
      rw [if_neg (by simp; omega), ← hu, List.take_left, List.drop_left]
      simp
      omega
    · rw [if_neg hty] at hu ⊢
      have : uuid = [] := List.length_eq_zero_iff.1 hu
      subst this; simp
  rw [e3, Res.ok_bind]
  simp only
  rw [if_neg (by omega), Res.ok_bind]
  simp only
  rw [if_neg (by omega)]

/-! ## Bytes of laid boxes -/

theorem wire_length (l : Laid) : 8 ≤ (wire l).length := by
  cases l <;> simp [wire] <;> omega

theorem kept_type (l : Laid) : (kept l).type = l.type := by
  cases l <;> simp [kept, Laid.type, Tree.type]

theorem groups_not_uuid {type : Nat} {x} (h : groups type = some x) : type ≠ typeUuid := by
  rintro rfl; revert h; decide +revert

/-- No two types of one group. -/
def OnceIn (gs : List (List Nat)) (types : List Nat) : Prop :=
  ∀ g ∈ gs, (types.filter fun t => g.contains t).length ≤ 1

/-- The two tables of containers agree. -/
theorem groups_none {type : Nat} : groups type = none ↔ ¬ IsContainer type := by
  constructor
  · rintro h ⟨c, hc, rfl⟩
    have : ∀ c ∈ containers, (groups (code c.1)).isSome = true := by decide +kernel
    have := this c hc
    rw [h] at this
    cases this
  · intro h
    have key : ∀ n, (containers.any fun c => code c.1 == n) = true → type ≠ n := by
      rintro n hn rfl
      obtain ⟨c, hc, he⟩ := List.any_eq_true.1 hn
      exact h ⟨c, hc, eq_of_beq he⟩
    unfold groups
    repeat rw [if_neg (key _ (by decide +kernel))]

theorem groups_some {type : Nat} {gs : List (List Nat)} {e : Err} (h : groups type = some (gs, e)) :
    IsContainer type ∧ ∀ ts, Once type ts ↔ OnceIn gs ts := by
  have hc : IsContainer type := by
    apply Classical.byContradiction
    intro hn
    rw [groups_none.2 hn] at h
    cases h
  refine ⟨hc, fun ts => ?_⟩
  have same : ∀ c ∈ containers, ∀ x ∈ (groups (code c.1)).toList,
      (∀ g ∈ c.2, ∃ g' ∈ x.1, (∀ t ∈ g.map code, t ∈ g') ∧ ∀ t ∈ g', t ∈ g.map code) ∧
      (∀ g' ∈ x.1, ∃ g ∈ c.2, (∀ t ∈ g.map code, t ∈ g') ∧ ∀ t ∈ g', t ∈ g.map code) := by
    have h : (containers.all fun c => (groups (code c.1)).toList.all fun x =>
        (c.2.all fun g => x.1.any fun g' => (g.map code).all (g'.contains ·) && g'.all ((g.map code).contains ·)) &&
        (x.1.all fun g' => c.2.any fun g => (g.map code).all (g'.contains ·) && g'.all ((g.map code).contains ·)))
          = true := by decide +kernel
    simpa only [List.all_eq_true, List.any_eq_true, Bool.and_eq_true, List.contains_iff_mem] using h
  have filt : ∀ a b : List Nat, (∀ t ∈ a, t ∈ b) → (∀ t ∈ b, t ∈ a) →
      (ts.filter fun t => a.contains t) = ts.filter fun t => b.contains t := by
    intro a b h1 h2
    apply List.filter_congr
    intro t _
    rw [Bool.eq_iff_iff]
    simp only [List.contains_iff_mem]
    exact ⟨h1 t, h2 t⟩
  constructor
  · intro ho g' hg'
    obtain ⟨c, hcm, hct⟩ := hc
    obtain ⟨g, hg, h1, h2⟩ := (same c hcm (gs, e) (by rw [hct, h]; simp)).2 g' hg'
    rw [← filt _ _ h1 h2]
    exact ho c hcm hct g hg
  · intro ho c hcm hct g hg
    obtain ⟨g', hg', h1, h2⟩ := (same c hcm (gs, e) (by rw [hct, h]; simp)).1 g hg
    rw [filt _ _ h1 h2]
    exact ho g' hg'

theorem isFree_iff (type : Nat) : isFree type = true ↔ FreeSpace type := by
  have e1 : code "free" = fcc 'f' 'r' 'e' 'e' := by decide +kernel
  have e2 : code "skip" = fcc 's' 'k' 'i' 'p' := by decide +kernel
  simp [isFree, FreeSpace, e1, e2]

theorem groups_lt {type : Nat} {x} (h : groups type = some x) : type < 4294967296 := by
  unfold groups at h
  repeat' split at h
  all_goals first | (subst_vars; decide) | (cases h; done)

/-! ## Members that may occur once -/

theorem once_append {gs : List (List Nat)} {old : List Tree} {c : Tree}
    (ho : OnceIn gs (old.map Tree.type)) (hv : vacant gs old c.type = true) :
    OnceIn gs ((old ++ [c]).map Tree.type) := by
  intro g hg
  have := ho g hg
  unfold vacant at hv
  have hv := List.all_eq_true.1 hv g hg
  simp only [List.map_append, List.map_cons, List.map_nil, List.filter_append, List.length_append]
  by_cases hc : g.contains c.type = true
  · simp only [hc, Bool.true_and, Bool.not_eq_true', List.any_eq_false] at hv
    have : (old.map Tree.type).filter (fun t => g.contains t) = [] := by
      rw [List.filter_eq_nil_iff]
      intro t ht
      obtain ⟨x, hx, rfl⟩ := List.mem_map.1 ht
      exact hv x hx
    rw [this]
    simp [List.filter_cons]
    split <;> simp
  · simp only [Bool.not_eq_true] at hc
    simp [List.filter_cons] at this ⊢
    have hc' : c.type ∉ g := by simpa using hc
    simp [hc']
    exact this

theorem vacant_of_once {gs : List (List Nat)} {old more : List Tree} {c : Tree}
    (ho : OnceIn gs ((old ++ c :: more).map Tree.type)) : vacant gs old c.type = true := by
  unfold vacant
  rw [List.all_eq_true]
  intro g hg
  have := ho g hg
  simp only [List.map_append, List.map_cons, List.filter_append, List.length_append] at this
  by_cases hc : g.contains c.type = true
  · rw [List.filter_cons_of_pos hc] at this
    simp only [List.length_cons] at this
    have h0 : (old.map Tree.type).filter (fun t => g.contains t) = [] :=
      List.length_eq_zero_iff.1 (by omega)
    rw [List.filter_eq_nil_iff] at h0
    simp only [hc, Bool.true_and, Bool.not_eq_true', List.any_eq_false]
    intro x hx
    exact h0 _ (List.mem_map.2 ⟨x, hx, rfl⟩)
  · simp only [Bool.not_eq_true] at hc
    simp only [hc, Bool.false_and, Bool.not_false]


/-! ## What a successful parse read -/

/-- The box that was read lies at the start of the input. -/
def ReadsBox (n : Nat) : Prop := ∀ (inp r : Bytes) (t : Tree) (h : Hdr), inp.length < 4294967296 →
  parseAtom (body n) inp = .ok (t, h, r) →
  ∃ l, Fit r.isEmpty l ∧ kept l = t ∧ inp = wire l ++ r ∧ h.size = (wire l).length ∧ h.type = l.type

/-- The members that were read lie one after another at the start of the input. -/
def ReadsBoxes (n : Nat) : Prop := ∀ (size : Nat) (gs : List (List Nat)) (e : Err) (old cs : List Tree) (s s' : PS),
  s.read + s.rest.length < 4294967296 → children n size gs e old s = .ok (cs, s') →
  ∃ ls, Fits s'.rest.isEmpty ls ∧ cs = old ++ keptAll ls ∧ s.rest = wires ls ++ s'.rest ∧
    s'.read = s.read + (wires ls).length ∧
    (OnceIn gs (old.map Tree.type) → OnceIn gs (cs.map Tree.type))

theorem wires_isEmpty (ls : List Laid) (r : Bytes) : (wires ls ++ r).isEmpty = (r.isEmpty && ls.isEmpty) := by
  cases ls with
  | nil => simp [wires]
  | cons l ls =>
    have := wire_length l
    have h : wire l ≠ [] := by intro h; rw [h] at this; simp at this
    simp [wires, h]

theorem readsBoxes_succ {n : Nat} (h1 : ReadsBox n) (h2 : ReadsBoxes n) : ReadsBoxes (n + 1) := by
  intro size gs e old cs s s' hl hp
  unfold children at hp
  by_cases hc : s.read < size
  · simp only [if_pos hc] at hp
    cases hb : parseAtom (body n) s.rest with
    | err e => rw [hb] at hp; cases hp
    | ub => rw [hb] at hp; cases hp
    | ok x =>
      obtain ⟨c, h, r⟩ := x
      rw [hb] at hp
      dsimp only at hp
      obtain ⟨l, hf, hk, hi, hs, ht⟩ := h1 _ _ _ _ (by omega) hb
      have hlen : s.rest.length = (wire l).length + r.length := by rw [hi]; simp
      have hw : (s.read + h.size) % 4294967296 = s.read + (wire l).length := by
        rw [hs]; apply Nat.mod_eq_of_lt; omega
      rw [hw] at hp
      have hfit : ∀ ls, r = wires ls ++ s'.rest → Fits s'.rest.isEmpty ls → Fits s'.rest.isEmpty (l :: ls) := by
        intro ls hr hfs
        refine ⟨?_, hfs⟩
        rw [hr, wires_isEmpty] at hf
        exact hf
      by_cases hfree : isFree h.type = true
      · rw [if_pos hfree] at hp
        rw [isFree_iff] at hfree
        obtain ⟨ls, hfs, hcs, hr, hre, ho⟩ := h2 _ _ _ _ _ _ _ (by dsimp only; omega) hp
        dsimp only at hr hre
        refine ⟨l :: ls, hfit ls hr hfs, ?_, ?_, ?_, ho⟩
        · rw [hcs]; simp [keptAll, ← ht, hfree]
        · rw [hi, hr]; simp [wires]
        · rw [hre]; simp [wires]; omega
      · rw [if_neg hfree] at hp
        rw [isFree_iff] at hfree
        by_cases hv : vacant gs old c.type = true
        · rw [if_pos hv] at hp
          obtain ⟨ls, hfs, hcs, hr, hre, ho⟩ := h2 _ _ _ _ _ _ _ (by dsimp only; omega) hp
          dsimp only at hr hre
          refine ⟨l :: ls, hfit ls hr hfs, ?_, ?_, ?_, fun h => ho (once_append h hv)⟩
          · rw [hcs]; simp [keptAll, ← ht, hfree, hk]
          · rw [hi, hr]; simp [wires]
          · rw [hre]; simp [wires]; omega
        · rw [if_neg hv] at hp; cases hp
  · simp only [if_neg hc] at hp
    simp only [Res.ok.injEq, Prod.mk.injEq] at hp
    obtain ⟨rfl, rfl⟩ := hp
    exact ⟨[], trivial, by simp [keptAll], by simp [wires], by simp [wires], id⟩

theorem readsBox_succ {n : Nat} (h2 : ReadsBoxes n) : ReadsBox (n + 1) := by
  intro inp r t h hl hp
  unfold parseAtom at hp
  cases hh : parseHeader inp with
  | err e => rw [hh] at hp; cases hp
  | ub => rw [hh] at hp; cases hp
  | ok x =>
    obtain ⟨h', r1⟩ := x
    rw [hh] at hp
    dsimp only at hp
    cases hb : body (n + 1) h' ⟨r1, h'.hlen⟩ with
    | err e => rw [hb] at hp; cases hp
    | ub => rw [hb] at hp; cases hp
    | ok y =>
      obtain ⟨t', s'⟩ := y
      rw [hb] at hp
      dsimp only at hp
      simp only [Res.ok.injEq, Prod.mk.injEq] at hp
      obtain ⟨rfl, rfl, hr⟩ := hp
      unfold body at hb
      cases hg : groups h'.type with
      | none =>
        simp only [hg] at hb
        rw [P.bind_apply] at hb
        simp only [P.bytesRead, P.bind_apply, getBytes] at hb
        rcases parseHeader_inv hl hh with ⟨h1, h16, h32, hle⟩ | ⟨zero, hi, ht, hu, hhl, hle, hsl, hz⟩
        · exfalso
          rw [if_pos (by rw [h1]; omega)] at hb
          cases hb
        · have hlen : inp.length = h'.hlen + r1.length := by
            rw [hi, hhl]; simp; omega
          have hn : (h'.size + (4294967296 - h'.hlen)) % 4294967296 = h'.size - h'.hlen := by omega
          rw [hn, if_neg (by omega)] at hb
          simp only [P.pure_apply, Res.ok.injEq, Prod.mk.injEq] at hb
          obtain ⟨rfl, rfl⟩ := hb
          dsimp only at hr
          have hsz : h'.size ≠ 1 := by omega
          rw [if_neg hsz] at hr
          have h0 : h'.size - (inp.length - (r1.drop (h'.size - h'.hlen)).length) = 0 := by
            rw [List.length_drop]; omega
          rw [h0, List.drop_zero] at hr
          subst hr
          have hd : (r1.take (h'.size - h'.hlen)).length = h'.size - h'.hlen := by
            rw [List.length_take]; omega
          refine ⟨.leaf zero h'.type h'.uuid (r1.take (h'.size - h'.hlen)), ⟨ht, groups_none.1 hg, hu, ?_⟩, rfl, ?_, ?_, rfl⟩
          · intro hz'
            rw [List.isEmpty_iff, List.drop_eq_nil_iff]
            have := hz hz'; omega
          · have e : 8 + h'.uuid.length + (r1.take (h'.size - h'.hlen)).length = h'.size := by omega
            simp only [wire, e]
            rw [List.append_assoc _ (r1.take _), List.take_append_drop]
            exact hi
          · simp only [wire, List.length_append, be_length, hd]; omega
      | some x =>
        obtain ⟨gs, e⟩ := x
        simp only [hg] at hb
        rw [P.bind_apply] at hb
        cases hcs : children n h'.size gs e [] ⟨r1, h'.hlen⟩ with
        | err e => rw [hcs] at hb; cases hb
        | ub => rw [hcs] at hb; cases hb
        | ok y =>
          obtain ⟨cs, s2⟩ := y
          rw [hcs] at hb
          simp only [P.bind_apply, P.bytesRead] at hb
          by_cases hne : s2.read ≠ h'.size
          · rw [if_pos hne] at hb; cases hb
          rw [if_neg hne, P.pure_apply] at hb
          simp only [Res.ok.injEq, Prod.mk.injEq] at hb
          obtain ⟨rfl, rfl⟩ := hb
          simp only [ne_eq, Decidable.not_not] at hne
          rcases parseHeader_inv hl hh with ⟨h1, h16, h32, hle⟩ | ⟨zero, hi, ht, hu, hhl, hle, hsl, hz⟩
          · obtain ⟨ls, _, _, _, hre, _⟩ := h2 _ _ _ _ _ _ _ (by dsimp only; omega) hcs
            dsimp only at hre; omega
          · have hlen : inp.length = h'.hlen + r1.length := by
              rw [hi, hhl]; simp; omega
            obtain ⟨ls, hfs, hcs', hrest, hre, ho⟩ := h2 _ _ _ _ _ _ _ (by dsimp only; omega) hcs
            dsimp only at hre hrest
            have hu0 : h'.uuid = [] := by
              rw [if_neg (groups_not_uuid hg)] at hu
              exact List.length_eq_zero_iff.1 hu
            have h8 : h'.hlen = 8 := by rw [hhl, hu0]; rfl
            have hsz : h'.size ≠ 1 := by omega
            rw [if_neg hsz] at hr
            have hlr : r1.length = (wires ls).length + s2.rest.length := by rw [hrest]; simp
            have h0 : h'.size - (inp.length - s2.rest.length) = 0 := by omega
            rw [h0, List.drop_zero] at hr
            subst hr
            refine ⟨.node zero h'.type ls, ⟨(groups_some hg).1, ((groups_some hg).2 _).2 ?_, ?_, hfs⟩, ?_, ?_, ?_, rfl⟩
            · have := ho (by intro g _; simp)
              rw [hcs'] at this
              simpa using this
            · intro hz'
              rw [List.isEmpty_iff, ← List.length_eq_zero_iff]
              have := hz hz'; omega
            · simp [kept, hcs']
            · have e : 8 + (wires ls).length = h'.size := by omega
              simp only [wire, e]
              rw [hi, hu0, hrest]; simp
            · simp only [wire, List.length_append, be_length]; omega

theorem reads (n : Nat) : ReadsBox n ∧ ReadsBoxes n := by
  induction n with
  | zero =>
    constructor
    · intro inp r t h _ hp
      unfold parseAtom at hp
      cases hh : parseHeader inp with
      | err e => rw [hh] at hp; cases hp
      | ub => rw [hh] at hp; cases hp
      | ok x => rw [hh] at hp; simp [body, P.bad] at hp
    · intro size gs e old cs s s' _ hp
      simp [children, P.bad] at hp
  | succ n ih => exact ⟨readsBox_succ ih.2, readsBoxes_succ ih.1 ih.2⟩

/-! ## Boxes that fit are read -/

mutual

theorem read_box (l : Laid) (n : Nat) (r : Bytes) (hn : (wire l).length ≤ n + 6)
    (hl : (wire l).length < 4294967296) (hf : Fit r.isEmpty l) :
    ∃ h, parseAtom (body n) (wire l ++ r) = .ok (kept l, h, r) ∧ h.size = (wire l).length ∧
      h.type = l.type := by
  have h8 := wire_length l
  obtain ⟨n, rfl⟩ : ∃ m, n = m + 1 := ⟨n - 1, by omega⟩
  match l, hf with
  | .leaf zero type uuid data, hf =>
    obtain ⟨ht, hg, hu, hz⟩ := hf
    have hg := groups_none.2 hg
    simp only [wire, List.length_append, be_length] at hl hn
    refine ⟨⟨8 + uuid.length + data.length, type, uuid, 0, 8 + uuid.length⟩, ?_, ?_, rfl⟩
    · have hp := parseHeader_fwd (size := 8 + uuid.length + data.length) (zero := zero) (by omega) ht hu
        (data ++ r) (by omega) (by simp) (by
          intro h; have := hz h; rw [List.isEmpty_iff] at this; simp [this])
      unfold parseAtom
      simp only [wire, List.append_assoc] at hp ⊢
      rw [hp]
      simp only [body, hg, P.bind_apply, P.bytesRead, getBytes]
      have hm : (8 + uuid.length + data.length + (4294967296 - (8 + uuid.length))) % 4294967296 = data.length := by
        omega
      rw [hm, if_neg (by simp)]
      simp only [List.take_left, List.drop_left, P.pure_apply, kept]
      rw [if_neg (by omega)]
      have : 8 + uuid.length + data.length -
        ((be 4 (if zero = true then 0 else 8 + uuid.length + data.length) ++
          (be 4 type ++ (uuid ++ (data ++ r)))).length - r.length) = 0 := by
        simp only [List.length_append, be_length]; omega
      rw [this, List.drop_zero]
    · simp only [wire, List.length_append, be_length]
  | .node zero type cs, hf =>
    obtain ⟨hcon, ho, hz, hfs⟩ := hf
    obtain ⟨⟨gs, e⟩, hg⟩ : ∃ x, groups type = some x := by
      cases h : groups type with
      | none => exact absurd hcon (groups_none.1 h)
      | some x => exact ⟨x, rfl⟩
    have ho := ((groups_some hg).2 _).1 ho
    simp only [wire, List.length_append, be_length] at hl hn
    refine ⟨⟨8 + (wires cs).length, type, [], 0, 8⟩, ?_, ?_, rfl⟩
    · have hp := parseHeader_fwd (size := 8 + (wires cs).length) (zero := zero) (uuid := []) (by omega)
        (groups_lt hg) (by rw [if_neg (groups_not_uuid hg)]; rfl)
        (wires cs ++ r) (by simp) (by simp) (by
          intro h; have := hz h; rw [List.isEmpty_iff] at this; simp [this])
      unfold parseAtom
      simp only [wire, List.append_assoc, List.nil_append, List.length_nil, Nat.add_zero] at hp ⊢
      rw [hp]
      have hc := read_boxes cs n r (8 + (wires cs).length) gs e [] 8 (by omega) rfl
        (by omega) hfs (by simpa using ho)
      simp only [body, hg, P.bind_apply]
      rw [hc]
      simp only [P.bytesRead, ne_eq, not_true_eq_false, if_false, P.pure_apply, List.nil_append, kept]
      rw [if_neg (by omega)]
      have : 8 + (wires cs).length -
        ((be 4 (if zero = true then 0 else 8 + (wires cs).length) ++
          (be 4 type ++ (wires cs ++ r))).length - r.length) = 0 := by
        simp only [List.length_append, be_length]; omega
      rw [this, List.drop_zero]
    · simp only [wire, List.length_append, be_length]

theorem read_boxes (ls : List Laid) (n : Nat) (r : Bytes) (size : Nat) (gs : List (List Nat)) (e : Err)
    (old : List Tree) (k : Nat) (hn : (wires ls).length + 1 ≤ n) (hs : size = k + (wires ls).length)
    (hl : k + (wires ls).length < 4294967296) (hf : Fits r.isEmpty ls)
    (ho : OnceIn gs ((old ++ keptAll ls).map Tree.type)) :
    children n size gs e old ⟨wires ls ++ r, k⟩ = .ok (old ++ keptAll ls, ⟨r, size⟩) := by
  obtain ⟨n, rfl⟩ : ∃ m, n = m + 1 := ⟨n - 1, by omega⟩
  match ls, hf with
  | [], _ =>
    simp only [wires, List.length_nil, Nat.add_zero] at hs
    subst hs
    simp [children, wires, keptAll]
  | l :: ls, hf =>
    obtain ⟨hf1, hf2⟩ := hf
    have h8 := wire_length l
    simp only [wires, List.length_append] at hn hs hl
    obtain ⟨h, hp, hsz, hty⟩ := read_box l n (wires ls ++ r) (by omega)
      (by omega) (by rw [wires_isEmpty]; exact hf1)
    unfold children
    simp only [wires, List.append_assoc]
    rw [if_pos (by omega), hp]
    simp only
    have hw : (k + h.size) % 4294967296 = k + (wire l).length := by
      rw [hsz]; apply Nat.mod_eq_of_lt; omega
    rw [hw, hty, kept_type]
    by_cases hfree : FreeSpace l.type
    · rw [if_pos ((isFree_iff _).2 hfree)]
      simp only [keptAll, if_pos hfree] at ho ⊢
      exact read_boxes ls n r size gs e old _ (by omega) (by omega) (by omega) hf2 ho
    · rw [if_neg (fun h => hfree ((isFree_iff _).1 h))]
      simp only [keptAll, if_neg hfree] at ho ⊢
      have hv := vacant_of_once ho
      rw [kept_type] at hv
      simp only [hv, if_true]
      have := read_boxes ls n r size gs e (old ++ [kept l]) (k + (wire l).length) (by omega) (by omega)
        (by omega) hf2 (by simpa using ho)
      simpa using this

end

end Verif.Tree
