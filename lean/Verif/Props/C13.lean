import Verif.Props.C12

/-!
# C13 — sample sizes survive being written and parsed in every field width
-/

namespace Verif.Stsz

/-- Layout of the box for a common size, and for lists in the 32, 16 and 8 bit forms. -/
def layout (version flags width common : Nat) (L : List Nat) : Bytes :=
  if common ≠ 0 then fullBox (fcc 's' 't' 's' 'z') version flags (be 4 common ++ be 4 L.length)
  else if width = 32 then
    fullBox (fcc 's' 't' 's' 'z') version flags (be 4 0 ++ (be 4 L.length ++ L.flatMap (be 4)))
  else fullBox (fcc 's' 't' 'z' '2') version flags
    (be 4 width ++ (be 4 L.length ++ L.flatMap (be (width / 8))))

theorem range_flatMap_getD (L : List Nat) (f : Nat → Bytes) :
    ((List.range L.length).flatMap fun i => f (L.getD i 0)) = L.flatMap f := by
  have : (List.range L.length).map (fun i => L.getD i 0) = L := by
    apply List.ext_getElem
    · simp
    · intro i h1 h2
      simp at h1
      simp [h1]
  conv => rhs; rw [← this, List.flatMap_map]

theorem emits_cells {t : Stsz} {L : List Nat} (h : Rep t L) (hs : t.sampleSize = 0)
    {put : Nat → W} {k : Nat} (hput : ∀ v, Emits (put v) (be k v)) :
    Emits (W.each (putCell t put) (List.range t.count)) (L.flatMap (be k)) := by
  rw [h.count, ← range_flatMap_getD L (be k)]
  apply Emits.each
  intro i hi
  have hi : i < L.length := by simpa using hi
  unfold putCell
  rw [h.cell hs hi]
  simpa [hi] using hput L[i]

theorem nibble_fst {a b : Nat} (ha : a < 16) :
    ((a &&& 0xF) ||| ((b &&& 0xF) <<< 4)) % 256 &&& 0xF = a := by
  have e1 : a &&& 0xF = a := by
    rw [show 0xF = 2 ^ 4 - 1 from rfl, Nat.and_two_pow_sub_one_eq_mod]; omega
  have e2 : b &&& 0xF = b % 16 := by
    rw [show 0xF = 2 ^ 4 - 1 from rfl, Nat.and_two_pow_sub_one_eq_mod]
  rw [Nat.or_comm, e1, e2, or_shift_eq (by omega), show 0xF = 2 ^ 4 - 1 from rfl,
    Nat.and_two_pow_sub_one_eq_mod]
  omega

theorem nibble_snd {a b : Nat} (ha : a < 16) :
    (((a &&& 0xF) ||| ((b &&& 0xF) <<< 4)) % 256) >>> 4 &&& 0xF = b % 16 := by
  have e1 : a &&& 0xF = a := by
    rw [show 0xF = 2 ^ 4 - 1 from rfl, Nat.and_two_pow_sub_one_eq_mod]; omega
  have e2 : b &&& 0xF = b % 16 := by
    rw [show 0xF = 2 ^ 4 - 1 from rfl, Nat.and_two_pow_sub_one_eq_mod]
  rw [Nat.or_comm, e1, e2, or_shift_eq (by omega), show 0xF = 2 ^ 4 - 1 from rfl,
    Nat.and_two_pow_sub_one_eq_mod, Nat.shiftRight_eq_div_pow]
  omega

/-- Writing and parsing any table that stands for the sizes `L`, in any field width that can hold
them. -/
theorem round_trip (version flags width : Nat) (t : Stsz) (L : List Nat) (h : Rep t L)
    (hv : version < 256) (hf : flags < 16777216)
    (hw : width = 4 ∨ width = 8 ∨ width = 16 ∨ width = 32) (hn : L.length < 1073741819)
    (hL : ∀ s ∈ L, s < 2 ^ width) (hss : t.sampleSize < 4294967296) :
    ∃ bytes t', BoxRoundTrip (calcSize (setField t width)) (serialize version flags (setField t width))
        parseBody ((version, flags), t') bytes ∧ Rep t' L ∧
      (width ≠ 4 → bytes = layout version flags width t.sampleSize L) := by
  have hR : Rep (setField t width) L := ⟨h.count, h.rep⟩
  by_cases hs : t.sampleSize = 0
  · have hs' : (setField t width).sampleSize = 0 := hs
    have hc' : (setField t width).count = L.length := hR.count
    have hfield : (setField t width).field = width := rfl
    have cells : ∀ (vals : List Nat), vals.length ≤ L.length + 1 → vals.take L.length = L →
        ∃ cells, parsedCells L.length vals = (pure (some cells)) ∧
          ∀ field alloc, Rep ⟨0, L.length, field, alloc, some cells⟩ L := by
      intro vals h1 h2
      have e : (L.length + 1) % 4294967296 = L.length + 1 := by omega
      refine ⟨vals ++ List.replicate (L.length + 1 - vals.length) 0, ?_, ?_⟩
      · unfold parsedCells; rw [e, if_pos h1]
      · intro field alloc
        refine ⟨rfl, Or.inr ⟨rfl, Or.inr ⟨_, rfl, by simp; omega, ?_⟩⟩⟩
        rw [List.take_append_of_le_length]
        · exact h2
        · have := congrArg List.length h2
          simp at this; omega
    by_cases h32 : width = 32
    · subst h32
      obtain ⟨cs, hpc, hrep⟩ := cells L (by omega) (by simp)
      have hbt : boxType (setField t 32) = typeStsz := by simp [boxType, setField]
      have hsz : calcSize (setField t 32) = 20 + 4 * L.length := by
        unfold calcSize; rw [if_pos hs']; simp [hfield, hc']; omega
      have hlen : (L.flatMap (be 4)).length = 4 * L.length := flatMap_length_const L (by simp)
      refine ⟨_, ⟨0, L.length, 32, (L.length + 1) % 4294967296 * 4 % 4294967296, some cs⟩, ?_, hrep _ _,
        fun _ => by unfold layout; rw [if_neg (by simpa using hs), if_pos rfl]⟩
      unfold serialize
      rw [hbt, if_pos rfl, if_pos hs', hs', hc']
      refine BoxRoundTrip.ofFull ?_ ?_ (by simp only [List.length_append, be_length, hlen]; omega)
        (by omega) (by decide) (by decide)
      · have := (emits_put32 0).seq ((emits_put32 L.length).seq (emits_cells hR hs' emits_put32))
        rw [hc'] at this
        exact this.thenAssert
      · apply Parses.at
        refine (parses_versionFlags hv hf).bind ?_
        rw [if_pos rfl]
        refine (parses_get32' (by omega)).bind ((parses_get32' (by omega)).bind ?_)
        rw [if_pos rfl]
        refine (parses_repeat L (be 4) (fun x hx => parses_get32' (hL x hx)) rfl).bind_nil ?_
        rw [hpc]
        exact parses_pure _
    · have hbt : boxType (setField t width) = typeStz2 := by
        unfold boxType; rw [if_neg]; rw [hfield, hs']; omega
      have hne : ¬ (typeStz2 = typeStsz) := by decide
      -- the three compact forms share everything but the entries
      have compact : ∀ (w : W) (entries : Bytes) (vals : List Nat),
          serialize version flags (setField t width) =
            (serFull (calcSize (setField t width)) typeStz2 version flags ;;
              (put32 width ;; put32 L.length ;; w) ;; W.assertFull) →
          Emits w entries →
          calcSize (setField t width) = 20 + entries.length →
          20 + entries.length < 4294967296 →
          Parses (if width = 4 then do
              let ps ← P.repeat ((L.length + 1) / 2) (do
                let b ← get8
                pure [b &&& 0xF, (b >>> 4) &&& 0xF])
              pure (ps.flatMap id)
            else if width = 8 then P.repeat L.length get8
            else if width = 16 then P.repeat L.length get16
            else pure []) entries vals →
          vals.length ≤ L.length + 1 → vals.take L.length = L →
          ∃ t', BoxRoundTrip (calcSize (setField t width)) (serialize version flags (setField t width))
            parseBody ((version, flags), t')
              (fullBox typeStz2 version flags (be 4 width ++ (be 4 L.length ++ entries))) ∧ Rep t' L := by
        intro w entries vals hser hem hsz hsmall hpar hl1 hl2
        obtain ⟨cs, hpc, hrep⟩ := cells vals hl1 hl2
        refine ⟨⟨0, L.length, width, (L.length + 1) % 4294967296 * 4 % 4294967296, some cs⟩, ?_, hrep _ _⟩
        rw [hser]
        refine BoxRoundTrip.ofFull ?_ ?_ (by simp only [List.length_append, be_length]; omega)
          (by omega) (by decide) (by decide)
        · exact ((emits_put32 width).seq ((emits_put32 L.length).seq hem)).thenAssert
        · apply Parses.at
          refine (parses_versionFlags hv hf).bind ?_
          rw [if_neg hne]
          refine (parses_get32' (by omega)).bind ((parses_get32' (by omega)).bind ?_)
          refine hpar.bind_nil ?_
          rw [hpc]
          exact parses_pure _
      rcases hw with rfl | rfl | rfl | rfl
      · -- 4 bits
        obtain ⟨f, hf1, hf2⟩ : ∃ f : Nat → Nat, (∀ i, 2 * i < L.length → putNibbles (setField t 4) (2 * i) =
            put8 ((L.getD (2 * i) 0 &&& 0xF) ||| ((f i &&& 0xF) <<< 4))) ∧
            ∀ i, 2 * i + 1 < L.length → f i = L.getD (2 * i + 1) 0 := by
          rcases hR.rep with ⟨g, _⟩ | ⟨_, rfl | ⟨cs, g1, g2, g3⟩⟩
          · exact absurd hs' g
          · exact ⟨fun _ => 0, by simp, by simp⟩
          · have hget : ∀ i, i < L.length → cs.getD i 0 = L.getD i 0 := by
              intro i hi
              have e : (cs.take L.length)[i]? = cs[i]? := List.getElem?_take_of_lt hi
              rw [List.getD_eq_getElem?_getD, List.getD_eq_getElem?_getD, ← e, g3]
            refine ⟨fun i => cs.getD (2 * i + 1) 0, ?_, fun i hi => hget _ hi⟩
            intro i hi
            unfold putNibbles
            rw [hR.cell hs' hi]
            have : cell (setField t 4) (2 * i + 1) = .ok (cs.getD (2 * i + 1) 0) := by
              unfold cell
              rw [g1]
              have hlt : 2 * i + 1 < cs.length := by omega
              simp [hlt]
            rw [this]
            simp [hi]
        have hsz : calcSize (setField t 4) = 20 + (L.length + 1) / 2 := by
          unfold calcSize; rw [if_pos hs']; simp [hfield, hc']; omega
        have hkl : ∀ k, k ∈ List.range ((L.length + 1) / 2) → 2 * k < L.length := by
          intro k hk; simp at hk; omega
        have hlen : ((List.range ((L.length + 1) / 2)).flatMap fun k =>
            be 1 ((L.getD (2 * k) 0 &&& 0xF) ||| ((f k &&& 0xF) <<< 4))).length = (L.length + 1) / 2 := by
          rw [flatMap_length_const (c := 1) _ (by simp)]; simp
        have hLd : ∀ i, L.getD i 0 < 16 := by
          intro i
          by_cases hi : i < L.length
          · have := hL L[i] (List.getElem_mem _)
            simpa [hi] using this
          · simp [List.getD_eq_getElem?_getD, List.getElem?_eq_none (Nat.not_lt.mp hi)]
        obtain ⟨t', ht1, ht2⟩ := compact (W.each (fun k => putNibbles (setField t 4) (2 * k)) (List.range ((L.length + 1) / 2)))
          _ (((List.range ((L.length + 1) / 2)).map fun k => [L.getD (2 * k) 0, f k % 16]).flatMap id)
          (by unfold serialize; rw [hbt, if_neg hne, hc']; rfl)
          (Emits.each (g := fun k => be 1 ((L.getD (2 * k) 0 &&& 0xF) ||| ((f k &&& 0xF) <<< 4))) _
            (fun k hk => by rw [hf1 k (hkl k hk)]; exact emits_put8 _))
          (by rw [hlen, hsz]) (by rw [hlen]; omega)
          (by
            rw [if_pos rfl]
            refine Parses.bind_nil (parses_repeat_map _ _ (fun k => [L.getD (2 * k) 0, f k % 16]) ?_ (by simp)) (parses_pure _)
            intro k hk
            refine (parses_get8 _).bind_nil ?_
            rw [nibble_fst (hLd _), nibble_snd (hLd _)]
            exact parses_pure _)
          (by
            have : (((List.range ((L.length + 1) / 2)).map fun k => [L.getD (2 * k) 0, f k % 16]).flatMap id).length =
                2 * ((L.length + 1) / 2) := by
              have : ∀ (n : Nat), (((List.range n).map fun k => [L.getD (2 * k) 0, f k % 16]).flatMap id).length = 2 * n := by
                intro n
                induction n with
                | zero => rfl
                | succ n ih => rw [List.range_succ, List.map_append, List.flatMap_append, List.length_append, ih]; simp; omega
              exact this _
            rw [this]; omega)
          (by
            have key : ∀ (n i : Nat), i < 2 * n → i < L.length →
                (((List.range n).map fun k => [L.getD (2 * k) 0, f k % 16]).flatMap id)[i]? = some (L.getD i 0) := by
              intro n
              induction n with
              | zero => intro i hi; omega
              | succ n ih =>
                intro i hi hiL
                have hlen2 : ∀ (n : Nat), (((List.range n).map fun k => [L.getD (2 * k) 0, f k % 16]).flatMap id).length = 2 * n := by
                  intro n
                  induction n with
                  | zero => rfl
                  | succ n ih => rw [List.range_succ, List.map_append, List.flatMap_append, List.length_append, ih]; simp; omega
                rw [List.range_succ, List.map_append, List.flatMap_append]
                by_cases hi2 : i < 2 * n
                · rw [List.getElem?_append_left (by rw [hlen2]; exact hi2)]
                  exact ih i hi2 hiL
                · rw [List.getElem?_append_right (by rw [hlen2]; omega), hlen2]
                  by_cases he : i = 2 * n
                  · subst he; simp
                  · have he : i = 2 * n + 1 := by omega
                    subst he
                    have := hf2 n hiL
                    have h16 := hLd (2 * n + 1)
                    rw [show 2 * n + 1 - 2 * n = 1 by omega]
                    simp only [List.map_cons, List.map_nil, List.flatMap_cons, List.flatMap_nil, id, List.append_nil,
                      List.getElem?_cons_succ, List.getElem?_cons_zero, this]
                    rw [Nat.mod_eq_of_lt h16]
            apply List.ext_getElem?
            intro i
            by_cases hi : i < L.length
            · rw [List.getElem?_take_of_lt hi, key _ i (by omega) hi]
              simp [hi]
            · rw [List.getElem?_take_eq_none (by omega), List.getElem?_eq_none (by omega)])
        exact ⟨_, t', ht1, ht2, fun h => absurd rfl h⟩
      · -- 8 bits
        have hlen : (L.flatMap (be 1)).length = L.length := by
          rw [flatMap_length_const (c := 1) L (by simp)]; omega
        have hsz : calcSize (setField t 8) = 20 + L.length := by
          unfold calcSize; rw [if_pos hs']; simp [hfield, hc']; omega
        obtain ⟨t', ht1, ht2⟩ := compact (W.each (putCell (setField t 8) put8) (List.range L.length)) (L.flatMap (be 1)) L
          (by unfold serialize; rw [hbt, if_neg hne, hc']; rfl)
          (by have := emits_cells hR hs' emits_put8; rwa [hc'] at this)
          (by rw [hlen, hsz]) (by rw [hlen]; omega)
          (by rw [if_neg (by omega), if_pos rfl]
              exact parses_repeat L (be 1) (fun x hx => parses_get8' (hL x hx)) rfl)
          (by omega) (by simp)
        exact ⟨_, t', ht1, ht2, fun _ => by unfold layout; rw [if_neg (by simpa using hs), if_neg (by omega)]; rfl⟩
      · -- 16 bits
        have hlen : (L.flatMap (be 2)).length = 2 * L.length := flatMap_length_const (c := 2) L (by simp)
        have hsz : calcSize (setField t 16) = 20 + 2 * L.length := by
          unfold calcSize; rw [if_pos hs']; simp [hfield, hc']; omega
        obtain ⟨t', ht1, ht2⟩ := compact (W.each (putCell (setField t 16) put16) (List.range L.length)) (L.flatMap (be 2)) L
          (by unfold serialize; rw [hbt, if_neg hne, hc']; rfl)
          (by have := emits_cells hR hs' emits_put16; rwa [hc'] at this)
          (by rw [hlen, hsz]) (by rw [hlen]; omega)
          (by rw [if_neg (by omega), if_neg (by omega), if_pos rfl]
              exact parses_repeat L (be 2) (fun x hx => parses_get16' (hL x hx)) rfl)
          (by omega) (by simp)
        exact ⟨_, t', ht1, ht2, fun _ => by unfold layout; rw [if_neg (by simpa using hs), if_neg (by omega)]; rfl⟩
      · exact absurd rfl h32
  · -- one common size: always the 32-bit form
    have hbt : boxType (setField t width) = typeStsz := by
      unfold boxType; rw [if_pos (Or.inr (show (setField t width).sampleSize ≠ 0 from hs))]
    have hs' : ¬ (setField t width).sampleSize = 0 := hs
    have hc' : (setField t width).count = L.length := hR.count
    have hsz : calcSize (setField t width) = 20 := by unfold calcSize; rw [if_neg hs']
    refine ⟨_, ⟨t.sampleSize, L.length, 32, 0, none⟩, ?_, ?_, fun _ => by unfold layout; rw [if_pos hs]⟩
    · unfold serialize
      rw [hbt, if_pos rfl, if_neg hs', hc']
      refine BoxRoundTrip.ofFull ?_ ?_ (by simp only [List.length_append, be_length]; omega)
        (by omega) (by decide) (by decide)
      · have := (emits_put32 t.sampleSize).seq ((emits_put32 L.length).seq emits_skip)
        simp only [List.append_nil] at this
        exact this.thenAssert
      · apply Parses.at
        refine (parses_versionFlags hv hf).bind ?_
        rw [if_pos rfl]
        refine (parses_get32' hss).bind ((parses_get32' (by omega)).bind_nil ?_)
        rw [if_neg hs]
        exact parses_pure _
    · refine ⟨rfl, ?_⟩
      rcases h.rep with ⟨h1, h2⟩ | ⟨h1, _⟩
      · exact Or.inl ⟨h1, h2⟩
      · exact absurd h1 hs

/-- For every history of additions and every field width that can hold the sizes added, the table
is written in exactly the computed number of bytes, and the parsed table reports the size of every
sample and refuses every number out of range. The bytes are given in full except for the 4-bit
form. -/
theorem c13_stsz_round_trip (version flags width : Nat) (bs : List (Batch × (Nat → Nat))) (L : List Nat)
    (hL : L = bs.flatMap fun b => b.1.values) (hne : ∀ b ∈ bs, b.1.values ≠ [])
    (hv : version < 256) (hf : flags < 16777216)
    (hw : width = 4 ∨ width = 8 ∨ width = 16 ∨ width = 32) (hn : L.length + 1 < 1073739776)
    (hfit : ∀ s ∈ L, s < 2 ^ width) :
    ∃ t bytes t', runAll addBatch create bs = .ok t ∧
      BoxRoundTrip (calcSize (setField t width)) (serialize version flags (setField t width))
        parseBody ((version, flags), t') bytes ∧
      (∀ (n s : Nat), L[n]? = some s → getSampleSize t' (n + 1) = .ok s) ∧
      (∀ n, n = 0 ∨ L.length < n → getSampleSize t' n = .err .badParam) ∧
      ∃ common, (common ≠ 0 → L = List.replicate L.length common) ∧
        (width ≠ 4 → bytes = layout version flags width common L) := by
  subst hL
  obtain ⟨t, h1, _, h3⟩ := addAll_ok bs create [] inv_create hne (by simpa using hn)
  simp only [List.nil_append] at h3
  have hpow : 2 ^ width ≤ 4294967296 := by rcases hw with rfl | rfl | rfl | rfl <;> decide
  have hss : t.sampleSize < 4294967296 := by
    rcases h3.rep with ⟨_, g, _⟩ | ⟨g1, _, g2, _⟩ | ⟨_, g, _⟩
    · omega
    · have : t.sampleSize ∈ bs.flatMap fun b => b.1.values := by
        rw [g2]
        exact List.mem_replicate.mpr ⟨fun h => g1 (List.length_eq_zero_iff.mp h), rfl⟩
      exact Nat.lt_of_lt_of_le (hfit _ this) hpow
    · omega
  obtain ⟨bytes, t', g1, g2, g3⟩ := round_trip version flags width t _ h3.toRep hv hf hw (by omega) hfit hss
  refine ⟨t, bytes, t', h1, g1, ?_, ?_, t.sampleSize, ?_, g3⟩
  · intro n s hs
    obtain ⟨hlt, rfl⟩ := List.getElem?_eq_some_iff.mp hs
    rw [g2.getSampleSize (n + 1), dif_pos ⟨by omega, hlt⟩]
    rfl
  · intro n hn
    rw [g2.getSampleSize n, dif_neg (by omega)]
  · intro hc
    rcases h3.toRep.rep with ⟨_, g⟩ | ⟨g, _⟩
    · exact g
    · exact absurd g hc

/-- Five samples in the 4-bit form. -/
example : ∃ t bytes t', runAll addBatch create [(.uniform 2 7, fun _ => 99), (.each [15, 0, 3], fun _ => 99)] = .ok t ∧
    BoxRoundTrip (calcSize (setField t 4)) (serialize 0 0 (setField t 4)) parseBody ((0, 0), t') bytes ∧
    getSampleSize t' 3 = .ok 15 := by
  obtain ⟨t, bytes, t', h1, h2, h3, _⟩ := c13_stsz_round_trip 0 0 4
    [(.uniform 2 7, fun _ => 99), (.each [15, 0, 3], fun _ => 99)] _ rfl (by simp [Batch.values])
    (by omega) (by omega) (by omega) (by simp [Batch.values]) (by decide)
  exact ⟨t, bytes, t', h1, h2, h3 2 15 (by decide)⟩

/-- The 4-bit form is not the one of the standard (ISO/IEC 14496-12, 8.7.3.3.1: the first of two
sizes is in the high half of the byte): sizes 1 and 2 are written as `0x21`. The library reads back
what it writes. -/
theorem c13_nibbles_swapped :
    runW 21 (serialize 0 0 ⟨0, 2, 4, 0, some [1, 2, 0]⟩) =
      .ok (fullBox (fcc 's' 't' 'z' '2') 0 0 (be 4 4 ++ be 4 2 ++ [0x21])) := by
  decide

end Verif.Stsz
