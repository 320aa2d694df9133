import Verif.Spec.Merge
import Verif.Lemmas.Media
import Verif.Props.C06
import Verif.Props.C16
import Verif.Props.C17
import Verif.Props.C19
import Verif.Props.C20

/-! # Lemmas for C54 -/

namespace Verif.Merge

open Traf (Entry Run Tfhd has)

/-! ## Steps -/

theorem of_then {f : Table → Res Table} {m m' : Table} (h : f m = .ok m') (b : Step) :
    (Step.of f >> b) m = b m' := by
  simp only [Step.andThen, Step.of, h, Res.bind]

theorem andThen_ok {a b : Step} {m m' : Table} (h : a m = .ok (m', none)) : (a >> b) m = b m' := by
  simp only [Step.andThen, h, Res.bind]

/-! ## Sizes -/

/-- The size table holds `L`; additionally it may have been read without any size and hold only samples of
one size. -/
def SizesInv (t : Stsz.Stsz) (L : List Nat) : Prop :=
  Stsz.Inv t L ∨ (t.count = L.length ∧ ∃ cells, t.cells = some cells ∧ t.alloc = 4 * cells.length ∧
    t.alloc < 4294967296 ∧
    ((L = [] ∧ t.sampleSize = 0) ∨ (L ≠ [] ∧ t.sampleSize ≠ 0 ∧ L = List.replicate L.length t.sampleSize)))

theorem sizesInv_rep {t : Stsz.Stsz} {L : List Nat} (h : SizesInv t L) : Stsz.Rep t L := by
  rcases h with h | ⟨h1, cells, h2, h3, h4, h5⟩
  · exact h.toRep
  · refine ⟨h1, ?_⟩
    rcases h5 with ⟨h5, h6⟩ | ⟨h5, h6, h7⟩
    · exact Or.inr ⟨h6, Or.inl h5⟩
    · exact Or.inl ⟨h6, h7⟩

theorem sizes_add (junk : Nat → Nat) {t : Stsz.Stsz} {L : List Nat} (h : SizesInv t L) (vs : List Nat)
    (hne : vs ≠ []) (hb : L.length + vs.length + 1 < 1073739776)
    (hok : L = [] ∨ (∃ a ∈ L, ∃ b ∈ L, a = 0 ∨ a ≠ b) ∨ ∀ a ∈ L ++ vs, ∀ b ∈ L ++ vs, a = b) :
    ∃ t', Stsz.addSamples junk t vs.length vs = .ok t' ∧ t'.count = L.length + vs.length ∧
      SizesInv t' (L ++ vs) := by
  rcases h with h | ⟨h1, cells, h2, h3, h4, h5⟩
  · obtain ⟨t', g1, _, g3⟩ := Stsz.addSamples_ok junk h (.each vs) hne hb
    exact ⟨t', g1, by rw [g3.count]; simp [Batch.values], Or.inl g3⟩
  · obtain ⟨s0, rest, rfl⟩ := List.exists_cons_of_ne_nil hne
    simp only [List.length_cons] at hb
    have hcnt : (t.count + (rest.length + 1)) % 4294967296 = (L ++ s0 :: rest).length := by
      rw [h1, List.length_append, List.length_cons]; omega
    unfold Stsz.addSamples
    simp only [List.length_cons]
    by_cases hv : (rest.any fun s => s ≠ s0) ∨ s0 = 0 ∨ (t.count > 0 ∧ s0 ≠ t.sampleSize)
    · rw [if_pos hv]
      -- only possible with nothing in the table
      have hL : L = [] := by
        rcases h5 with h5 | ⟨h5, h6, h7⟩
        · exact h5.1
        · have hmem : ∀ a ∈ L, a = t.sampleSize := by
            intro a ha
            rw [h7] at ha
            exact List.eq_of_mem_replicate ha
          have hpos := List.length_pos_iff.mpr h5
          exfalso
          rcases hok with e | ⟨a, ha, b, hb', hab⟩ | hall
          · exact h5 e
          · rcases hab with e | e
            · exact h6 (by rw [← hmem a ha]; exact e)
            · exact e (by rw [hmem a ha, hmem b hb'])
          · obtain ⟨x, hx⟩ := List.exists_mem_of_ne_nil L h5
            have e0 : s0 = t.sampleSize := by
              rw [← hmem x hx]; exact hall s0 (by simp) x (by simp [hx])
            rcases hv with hv | hv | hv
            · obtain ⟨y, hy, hy'⟩ := List.any_eq_true.mp hv
              simp only [ne_eq, decide_not, Bool.not_eq_true', decide_eq_false_iff_not] at hy'
              exact hy' (hall y (by simp [hy]) s0 (by simp))
            · exact h6 (by rw [← e0]; exact hv)
            · exact hv.2 e0
      subst hL
      have hc0 : t.count = 0 := h1
      have hroom : ∃ alloc cells', Stsz.makeRoom junk t (rest.length + 1) = .ok (alloc, cells') ∧
          alloc = 4 * cells'.length ∧ alloc < 4294967296 ∧ rest.length + 1 < cells'.length := by
        have hns : (rest.length + 1 + t.count + 1) % 4294967296 * 4 % 4294967296 = 4 * (rest.length + 2) := by
          rw [hc0]; omega
        unfold Stsz.makeRoom
        have hnf : ¬ (t.cells = none ∧ t.count ≠ 0) := by simp [h2]
        simp only [hns, if_neg hnf]
        rw [h2, Option.getD_some]
        by_cases hlt : t.alloc < 4 * (rest.length + 2)
        · rw [if_pos hlt]
          unfold Stsz.grow
          simp only []
          rw [if_pos (by simp only [List.length_nil] at hb; omega)]
          simp only []
          generalize hq : (4 * (rest.length + 2) - t.alloc + 8191) / 8192 = q
          have hlen : (Stsz.realloc junk cells ((t.alloc + 8192 * q) / 4)).length = (t.alloc + 8192 * q) / 4 := by
            unfold Stsz.realloc
            rw [List.take_of_length_le (by omega)]
            simp; omega
          simp only [List.length_nil] at hb
          exact ⟨_, _, rfl, by rw [hlen]; omega, by omega, by rw [hlen]; omega⟩
        · rw [if_neg hlt]
          exact ⟨_, _, rfl, h3, h4, by omega⟩
      obtain ⟨alloc, cells', g1, g2, g3, g4⟩ := hroom
      have hvals : (if rest.length + 1 > 1 then s0 :: rest else List.replicate (rest.length + 1) s0) = s0 :: rest := by
        cases rest with
        | nil => rfl
        | cons a b => exact if_pos (by simp)
      obtain ⟨c, k1, k2, k3⟩ := Stsz.store_ok (cells := cells') (L := []) (vals := s0 :: rest) rfl (by simp; omega)
      simp only [List.length_nil] at k1
      simp only [g1]
      rw [hc0, hvals, k1]
      simp only []
      rw [hc0] at hcnt
      rw [hcnt]
      refine ⟨_, rfl, by simp, Or.inl ⟨rfl, Or.inr (Or.inr ⟨by simp, rfl, c, rfl, ?_, g3, ?_, k3⟩)⟩⟩
      · show alloc = 4 * c.length
        omega
      · simp; omega
    · rw [if_neg hv]
      have hs0 : s0 ≠ 0 := fun e => hv (Or.inr (Or.inl e))
      have hsame : t.count > 0 → s0 = t.sampleSize := by
        intro hc
        by_cases e : s0 = t.sampleSize
        · exact e
        · exact absurd (Or.inr (Or.inr ⟨hc, e⟩)) hv
      have hrest : ∀ x ∈ s0 :: rest, x = s0 := by
        intro x hx
        rcases List.mem_cons.mp hx with e | e
        · exact e
        · by_cases e' : x = s0
          · exact e'
          · exact absurd (Or.inl (List.any_eq_true.mpr ⟨x, e, by simp [e']⟩)) hv
      have hbv : s0 :: rest = List.replicate (s0 :: rest).length s0 := List.eq_replicate_iff.mpr ⟨rfl, hrest⟩
      rw [hcnt]
      refine ⟨_, rfl, by simp, Or.inr ⟨rfl, cells, h2, h3, h4, Or.inr ⟨by simp, hs0, ?_⟩⟩⟩
      rcases h5 with ⟨h5, _⟩ | ⟨h5, _, h7⟩
      · subst h5; simpa using hbv
      · have := List.length_pos_iff.mpr h5
        have e := hsame (by rw [h1]; omega)
        simp only []
        rw [List.length_append, List.replicate_append_replicate.symm, ← hbv, e, ← h7]

/-! ## Flags -/

theorem notSync_eq (f : Nat) : notSync f = f.testBit 16 := by
  unfold notSync has
  rw [show 0x10000 = 2 ^ 16 from rfl]
  cases h : f.testBit 16 with
  | true =>
    rw [bne_iff_ne]
    intro h0
    have : (f &&& 2 ^ 16).testBit 16 = true := by
      rw [Nat.testBit_and, h, Nat.testBit_two_pow_self]; rfl
    rw [h0] at this
    simp at this
  | false =>
    have : f &&& 2 ^ 16 = 0 := by
      apply Nat.eq_of_testBit_eq
      intro i
      rw [Nat.testBit_and, Nat.testBit_two_pow, Nat.zero_testBit]
      by_cases e : 16 = i
      · subst e; rw [h]; rfl
      · simp [e]
    rw [this]; rfl

theorem padOf_eq (e : Entry) : padOf e.flags = padding e := by
  unfold padOf padding
  rw [show 7 = 2 ^ 3 - 1 from rfl, Nat.and_two_pow_sub_one_eq_mod, Nat.shiftRight_eq_div_pow]

theorem depOf_eq (e : Entry) : depOf e.flags = dependency e := by
  unfold depOf dependency
  rw [show 0x3F = 2 ^ 6 - 1 from rfl, Nat.and_two_pow_sub_one_eq_mod, Nat.shiftRight_eq_div_pow]

/-! ## Sync samples -/

theorem mem_syncNumbers (es : List Entry) (k : Nat) :
    k ∈ syncNumbers es ↔ ∃ i e, es[i]? = some e ∧ isSync e = true ∧ k = i + 1 := by
  unfold syncNumbers
  rw [List.mem_filterMap]
  constructor
  · rintro ⟨i, _, h⟩
    cases he : es[i]? with
    | none => rw [he] at h; cases h
    | some e =>
      rw [he] at h
      simp only [notSync_eq] at h
      refine ⟨i, e, he, ?_⟩
      unfold isSync
      by_cases hb : e.flags.testBit 16 = true
      · rw [if_pos hb] at h; cases h
      · rw [if_neg hb] at h
        simp only [Option.some.injEq] at h
        exact ⟨by simp [hb], h.symm⟩
  · rintro ⟨i, e, he, hs, rfl⟩
    refine ⟨i, by simpa using (List.getElem?_eq_some_iff.mp he).1, ?_⟩
    rw [he]
    simp only [notSync_eq]
    unfold isSync at hs
    rw [if_neg (by simpa using hs)]

def syncAdd (junk : Nat → Nat) (es : List Entry) : Stss.Add := ⟨es.length, syncNumbers es, junk⟩

theorem syncAdd_valid (junk : Nat → Nat) (es : List Entry) : (syncAdd junk es).Valid := by
  refine ⟨?_, ?_⟩
  · show (syncNumbers es).Pairwise (· < ·)
    unfold syncNumbers
    refine List.Pairwise.filterMap _ ?_ List.pairwise_lt_range
    intro a a' haa b hb b' hb'
    have key : ∀ {i k : Nat}, (match es[i]? with
        | some e => if notSync e.flags then none else some (i + 1)
        | none => none) = some k → k = i + 1 := by
      intro i k h
      cases he : es[i]? with
      | none => rw [he] at h; cases h
      | some e =>
        rw [he] at h
        simp only at h
        split at h
        · cases h
        · exact (Option.some.inj h).symm
    have := key hb
    have := key hb'
    omega
  · intro o ho
    obtain ⟨i, e, he, _, rfl⟩ := (mem_syncNumbers es o).mp ho
    have := (List.getElem?_eq_some_iff.mp he).1
    show 1 ≤ i + 1 ∧ i + 1 ≤ es.length
    omega

theorem syncAdd_declared (junk : Nat → Nat) (es : List Entry) : (syncAdd junk es).declared = es.map isSync := by
  apply List.ext_getElem?
  intro i
  unfold Stss.Add.declared syncAdd
  rw [List.getElem?_map, List.getElem?_map]
  by_cases hi : i < es.length
  · rw [List.getElem?_range hi, List.getElem?_eq_getElem hi]
    simp only [Option.map_some, Option.some.injEq]
    have := mem_syncNumbers es (i + 1)
    cases hs : isSync es[i] with
    | true =>
      rw [decide_eq_true_eq, this]
      exact ⟨i, es[i], List.getElem?_eq_getElem hi, hs, rfl⟩
    | false =>
      rw [decide_eq_false_iff_not, this]
      rintro ⟨i', e, he, hs', hk⟩
      have : i' = i := by omega
      subst this
      rw [List.getElem?_eq_getElem hi, Option.some.injEq] at he
      rw [he] at hs
      rw [hs] at hs'
      cases hs'
  · rw [List.getElem?_eq_none (by simpa using hi), List.getElem?_eq_none (by simpa using hi)]
    rfl

theorem any_notSync (es : List Entry) : (es.any fun e => notSync e.flags) = true ↔ ∃ e ∈ es, isSync e = false := by
  rw [List.any_eq_true]
  constructor
  · rintro ⟨e, he, h⟩
    exact ⟨e, he, by unfold isSync; rw [← notSync_eq, h]; rfl⟩
  · rintro ⟨e, he, h⟩
    refine ⟨e, he, ?_⟩
    unfold isSync at h
    rw [notSync_eq]
    simpa using h

theorem sync_add (junk : Nat → Nat) (L : List Bool) (stss : Option Stss.Stss) (es : List Entry)
    (hI : Stss.Inv ⟨L.length, stss⟩ L) (hl : L.length + es.length < 1073741568)
    (hok : stss ≠ none → ∃ e ∈ es, isSync e = false) :
    ∃ s, Stss.tableAdd junk ⟨L.length, stss⟩ es.length
        (if es.any fun e => notSync e.flags then some (syncNumbers es) else none) = .ok s ∧
      Stss.Inv ⟨L.length + es.length, s.stss⟩ (L ++ es.map isSync) ∧
      (s.stss ≠ none → stss ≠ none ∨ ∃ e ∈ es, isSync e = false) := by
  by_cases h : (es.any fun e => notSync e.flags) = true
  · rw [if_pos h]
    obtain ⟨s, g1, g2⟩ := Stss.addBatch_ok (syncAdd junk es) (syncAdd_valid junk es) _ L hI hl
    rw [syncAdd_declared] at g2
    refine ⟨s, g1, ?_, fun _ => Or.inr ((any_notSync es).mp h)⟩
    have : s.samples = L.length + es.length := by rw [g2.samples]; simp
    rw [← this]; exact g2
  · rw [if_neg h]
    have hn : stss = none := by
      by_cases e : stss = none
      · exact e
      · exact absurd ((any_notSync es).mpr (hok e)) h
    subst hn
    refine ⟨_, rfl, ⟨by simp, ?_, by simp⟩, by simp⟩
    intro _ b hb
    rcases List.mem_append.mp hb with hb | hb
    · exact hI.none rfl b hb
    · obtain ⟨e, he, rfl⟩ := List.mem_map.mp hb
      cases hs : isSync e with
      | true => rfl
      | false => exact absurd ((any_notSync es).mpr ⟨e, he, hs⟩) h

/-! ## Composition offsets -/

/-- The offsets are `L`; `given` tells whether some were stated. -/
def OffsInv (n : Nat) (ctts : Option Ctts.Ctts) (L : List Nat) (given : Bool) : Prop :=
  if given then Ctts.Inv ⟨n, ctts⟩ L else ctts = none ∧ n = L.length ∧ ∀ x ∈ L, x = 0

theorem offs_add (L : List Nat) (ctts : Option Ctts.Ctts) (given : Bool) (es : List Entry) (offs : Bool)
    (hI : OffsInv L.length ctts L given) (hne : es ≠ []) (hl : L.length + es.length < 2147483648)
    (hz : offs = false → ∀ e ∈ es, e.offset = 0) (hok : offs = true → given = true ∨ L = []) :
    ∃ s, Ctts.tableAdd ⟨L.length, ctts⟩ es.length (if offs then some (es.map Entry.offset) else none) = .ok s ∧
      OffsInv (L.length + es.length) s.ctts (L ++ es.map Entry.offset) (given || offs) := by
  have hpos := List.length_pos_iff.mpr hne
  have hrep : offs = false → List.replicate es.length 0 = es.map Entry.offset := by
    intro h
    symm
    rw [List.eq_replicate_iff]
    refine ⟨by simp, ?_⟩
    intro x hx
    obtain ⟨e, he, rfl⟩ := List.mem_map.mp hx
    exact hz h e he
  cases offs with
  | false =>
    cases given with
    | false =>
      refine ⟨_, rfl, ?_⟩
      obtain ⟨h1, h2, h3⟩ := hI
      refine ⟨h1, by simp, ?_⟩
      intro x hx
      rcases List.mem_append.mp hx with hx | hx
      · exact h3 x hx
      · rw [← hrep rfl] at hx; exact List.eq_of_mem_replicate hx
    | true =>
      obtain ⟨s, g1, g2⟩ := Ctts.addBatch_ok (a := ⟨es.length, none⟩) hI ⟨hpos, by simp⟩ hl
      refine ⟨s, g1, ?_⟩
      have e : (Ctts.Add.mk es.length none).given = es.map Entry.offset := hrep rfl
      rw [e] at g2
      have : s.samples = L.length + es.length := by rw [g2.samples]; simp
      rw [← this]; exact g2
  | true =>
    have hv : (Ctts.Add.mk es.length (some (.each (es.map Entry.offset)))).Valid := by
      refine ⟨hpos, ?_⟩
      intro b hb
      simp only [Option.some.injEq] at hb
      subst hb
      exact ⟨by simp [Batch.count], by simpa [Batch.array] using hne⟩
    cases given with
    | true =>
      obtain ⟨s, g1, g2⟩ := Ctts.addBatch_ok (a := ⟨es.length, some (.each (es.map Entry.offset))⟩) hI hv hl
      refine ⟨s, g1, ?_⟩
      have : s.samples = L.length + es.length := by rw [g2.samples]; simp [Ctts.Add.given, Batch.values]
      rw [← this]; exact g2
    | false =>
      have hL : L = [] := by
        rcases hok rfl with h | h
        · cases h
        · exact h
      subst hL
      obtain ⟨h1, _, _⟩ := hI
      subst h1
      obtain ⟨s, g1, g2⟩ := Ctts.first_ok hv (by simp) (by simpa using hl)
      refine ⟨s, g1, ?_⟩
      have : s.samples = es.length := by rw [g2.samples]; simp [Ctts.Add.given, Batch.values]
      simp only [List.length_nil, Nat.zero_add, List.nil_append]
      rw [← this]; exact g2

theorem offs_get {n : Nat} {ctts : Option Ctts.Ctts} {L : List Nat} {given : Bool} (h : OffsInv n ctts L given)
    (hl : L.length < 2147483648) {i v : Nat} (hv : L[i]? = some v) : Ctts.offsetOf ⟨n, ctts⟩ (i + 1) = v := by
  cases given with
  | true => exact Ctts.offsetOf_ok h hl hv
  | false =>
    obtain ⟨h1, _, h3⟩ := h
    subst h1
    rw [h3 v (List.mem_of_getElem? hv)]
    rfl

/-! ## Padding -/

def PadsInv (n : Nat) (padb : Option Padb.Padb) (L : List Nat) : Prop :=
  ∃ h : List Padb.Add, Padb.StRep ⟨n, padb⟩ h ∧ h.flatMap Padb.Add.values = L ∧
    ((∃ b, Padb.Add.pads b ∈ h) ↔ ∃ p ∈ L, p ≠ 0)

theorem any_pad (es : List Entry) : (es.any fun e => padOf e.flags ≠ 0) = true ↔ ∃ p ∈ es.map padding, p ≠ 0 := by
  rw [List.any_eq_true]
  constructor
  · rintro ⟨e, he, h⟩
    rw [padOf_eq] at h
    exact ⟨_, List.mem_map_of_mem he, by simpa using h⟩
  · rintro ⟨p, hp, h⟩
    obtain ⟨e, he, rfl⟩ := List.mem_map.mp hp
    exact ⟨e, he, by rw [padOf_eq]; simpa using h⟩

theorem pads_add (L : List Nat) (padb : Option Padb.Padb) (es : List Entry)
    (hI : PadsInv L.length padb L) (hl : L.length + es.length < 4294967295) :
    ∃ s, Padb.tableAdd ⟨L.length, padb⟩ es.length
        (if es.any fun e => padOf e.flags ≠ 0 then some (es.map fun e => padOf e.flags) else none) = .ok s ∧
      PadsInv (L.length + es.length) s.padb (L ++ es.map padding) := by
  obtain ⟨h, h1, h2, h3⟩ := hI
  have hmap : (es.map fun e => padOf e.flags) = es.map padding := List.map_congr_left fun e _ => padOf_eq e
  by_cases ha : (es.any fun e => padOf e.flags ≠ 0) = true
  · rw [if_pos ha, hmap]
    obtain ⟨s, g1, g2⟩ := Padb.step _ h (.pads (.each (es.map padding))) h1
      (by simp only [List.flatMap_append, h2]; simp [Padb.Add.values, Batch.values]; omega)
    have e : (h ++ [Padb.Add.pads (.each (es.map padding))]).flatMap Padb.Add.values = L ++ es.map padding := by
      simp [h2, Padb.Add.values, Batch.values]
    have g1 : Padb.tableAdd ⟨L.length, padb⟩ (es.map padding).length (some (es.map padding)) = .ok s := g1
    rw [List.length_map] at g1
    refine ⟨s, g1, _, ?_, e, ?_⟩
    · have : s.samples = L.length + es.length := by rw [g2.1, e]; simp
      rw [← this]; exact g2
    · obtain ⟨p, hp, hp'⟩ := (any_pad es).mp ha
      exact ⟨fun _ => ⟨p, by simp [hp], hp'⟩, fun _ => ⟨.each (es.map padding), by simp⟩⟩
  · rw [if_neg ha]
    have hz : List.replicate es.length 0 = es.map padding := by
      symm
      rw [List.eq_replicate_iff]
      refine ⟨by simp, ?_⟩
      intro x hx
      by_cases e : x = 0
      · exact e
      · exact absurd ((any_pad es).mpr ⟨x, hx, e⟩) ha
    obtain ⟨s, g1, g2⟩ := Padb.step _ h (.silent es.length) h1
      (by simp only [List.flatMap_append, h2]; simp [Padb.Add.values]; omega)
    have e : (h ++ [Padb.Add.silent es.length]).flatMap Padb.Add.values = L ++ es.map padding := by
      simp [h2, Padb.Add.values, hz]
    refine ⟨s, g1, _, ?_, e, ?_⟩
    · have : s.samples = L.length + es.length := by rw [g2.1, e]; simp
      rw [← this]; exact g2
    · constructor
      · rintro ⟨b, hb⟩
        simp at hb
        obtain ⟨p, hp, hp'⟩ := h3.mp ⟨b, hb⟩
        exact ⟨p, by simp [hp], hp'⟩
      · rintro ⟨p, hp, hp'⟩
        rcases List.mem_append.mp hp with hp | hp
        · obtain ⟨b, hb⟩ := h3.mpr ⟨p, hp, hp'⟩
          exact ⟨b, by simp [hb]⟩
        · exact absurd ((any_pad es).mpr ⟨p, hp, hp'⟩) ha

theorem pads_get {n : Nat} {padb : Option Padb.Padb} {L : List Nat} (h : PadsInv n padb L) {i v : Nat}
    (hv : L[i]? = some v) :
    Padb.samplePad ⟨n, padb⟩ (i + 1) = .ok (if L.all fun p => p = 0 then 0xF8 else v) := by
  obtain ⟨h, ⟨h1, h2⟩, h3, h4⟩ := h
  unfold Padb.samplePad
  cases hp : padb with
  | none =>
    rw [hp] at h2
    have : ¬ ∃ p ∈ L, p ≠ 0 := by
      intro hx
      obtain ⟨b, hb⟩ := h4.mpr hx
      obtain ⟨k, hk⟩ := h2 _ hb
      cases hk
    rw [if_pos]
    rw [List.all_eq_true]
    intro x hx
    by_cases e : x = 0
    · simp [e]
    · exact absurd ⟨x, hx, e⟩ this
  | some t =>
    rw [hp] at h2
    obtain ⟨r1, b, hb⟩ := h2
    obtain ⟨p, hp', hp''⟩ := h4.mp ⟨b, hb⟩
    rw [h3] at r1
    rw [if_neg]
    · exact r1.get.1 i v hv
    · intro hall
      have := List.all_eq_true.mp hall p hp'
      simp at this
      exact hp'' this

/-! ## Dependencies -/

def depByte (e : Entry) : UInt8 := UInt8.ofNat (dependency e)

theorem deps_add (junk : Nat → UInt8) (L : Bytes) (sdtp : Option Sdtp.Sdtp) (es : List Entry) (k : Nat)
    (hI : Sdtp.StRep ⟨L.length, sdtp⟩ L) (hl : L.length + es.length < 4294967284) :
    ∃ s, Sdtp.tableAdd junk ⟨k, sdtp⟩ es.length = .ok s ∧
      Sdtp.StRep ⟨L.length + es.length, s.sdtp⟩ (L ++ List.replicate es.length 0) := by
  obtain ⟨s, g1, g2⟩ := Sdtp.step_rep hI (.add es.length junk) hl
  have g1 : Sdtp.tableAdd junk ⟨L.length, sdtp⟩ es.length = .ok s := g1
  have g2 : Sdtp.StRep s (L ++ List.replicate es.length 0) := g2
  have hs : s.samples = L.length + es.length := by rw [g2.1]; simp
  cases sdtp with
  | none =>
    have e : Sdtp.tableAdd junk ⟨L.length, none⟩ es.length = .ok ⟨w32(L.length + es.length), none⟩ := rfl
    rw [e] at g1
    injection g1 with g1
    refine ⟨_, rfl, ?_⟩
    rw [← g1] at g2
    rw [← g1] at hs
    simp only at hs
    rw [hs] at g2
    exact g2
  | some t =>
    unfold Sdtp.tableAdd at g1 ⊢
    dsimp only at g1 ⊢
    cases ht : Sdtp.addSamples junk t es.length with
    | ok t' =>
      rw [ht] at g1
      injection g1 with g1
      refine ⟨_, rfl, ?_⟩
      rw [← g1] at g2 hs
      simp only at hs
      rw [hs] at g2
      exact g2
    | err e => rw [ht] at g1; cases g1
    | ub => rw [ht] at g1; cases g1

theorem any_dep (es : List Entry) : (es.any fun e => depOf e.flags ≠ 0) = false →
    es.map depByte = List.replicate es.length 0 := by
  intro h
  rw [List.eq_replicate_iff]
  refine ⟨by simp, ?_⟩
  intro b hb
  obtain ⟨e, he, rfl⟩ := List.mem_map.mp hb
  have := List.any_eq_false.mp h e he
  simp only [ne_eq, decide_not, Bool.not_eq_true', decide_eq_false_iff_not, Decidable.not_not, depOf_eq] at this
  unfold depByte
  rw [this]; rfl

theorem deps_set (junk : Nat → UInt8) (L : Bytes) (sdtp : Option Sdtp.Sdtp) (es : List Entry) (hne : es ≠ [])
    (hI : Sdtp.StRep ⟨L.length + es.length, sdtp⟩ (L ++ List.replicate es.length 0))
    (hl : L.length + es.length < 2147483648) :
    ∃ s, Sdtp.tableSet junk ⟨L.length + es.length, sdtp⟩ (-(es.length : Int)) (es.map depByte) = .ok (s, none) ∧
      Sdtp.StRep ⟨L.length + es.length, s.sdtp⟩ (L ++ es.map depByte) := by
  have hpos := List.length_pos_iff.mpr hne
  obtain ⟨t, g1, g2⟩ := Sdtp.theTable_rep (junk := junk) hI
  have hlen : (L ++ List.replicate es.length (0 : UInt8)).length = L.length + es.length := by simp
  obtain ⟨k1, _⟩ := Sdtp.setDependency_rep g2 (-(es.length : Int)) (es.map depByte) (by rw [hlen]; omega)
    (by rw [hlen]; omega) (by omega) (by rw [List.length_map]; omega)
  have hf : Sdtp.first (L ++ List.replicate es.length (0 : UInt8)).length (-(es.length : Int)) = L.length := by
    unfold Sdtp.first
    rw [if_pos (by omega), hlen]; omega
  rw [hf] at k1
  obtain ⟨t', m1, m2⟩ := k1 (by rw [hlen, List.length_map]; omega)
  have ho : Mem.overwrite (L ++ List.replicate es.length (0 : UInt8)) (L.length : Int).toNat (es.map depByte) =
      L ++ es.map depByte := by
    rw [Int.toNat_natCast, Mem.overwrite_eq (by simp)]
    simp
  rw [ho] at m2
  refine ⟨⟨L.length + es.length, some t'⟩, ?_, by simp, by simp; omega, m2⟩
  unfold Sdtp.tableSet
  simp only [g1, Res.bind, m1]

end Verif.Merge
