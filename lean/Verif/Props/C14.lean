import Verif.Lemmas.Stco

/-!
# C14 — chunk offsets survive being written and parsed, using 64 bits only when needed
-/

namespace Verif.Stco

/-- The layout in the standard: `stco` with 32-bit offsets if all fit, else `co64` with 64-bit
offsets. -/
def layout (version flags : Nat) (offs : List Nat) : Bytes :=
  if ∀ o ∈ offs, o < 2 ^ 32 then
    fullBox (fcc 's' 't' 'c' 'o') version flags (be 4 offs.length ++ offs.flatMap (be 4))
  else fullBox (fcc 'c' 'o' '6' '4') version flags (be 4 offs.length ++ offs.flatMap (be 8))

theorem boxType_small {offs : List Nat} (h : ∀ o ∈ offs, o < 2 ^ 32) : boxType offs = typeStco := by
  unfold boxType
  rw [if_neg]
  simp only [List.any_eq_true, decide_eq_true_eq, not_exists, not_and, Decidable.not_not]
  intro o ho
  rw [Nat.shiftRight_eq_div_pow]
  exact Nat.div_eq_of_lt (h o ho)

theorem boxType_large {offs : List Nat} (h : ¬ ∀ o ∈ offs, o < 2 ^ 32) : boxType offs = typeCo64 := by
  unfold boxType
  rw [if_pos]
  simp only [List.any_eq_true, decide_eq_true_eq]
  simp only [Classical.not_forall] at h
  obtain ⟨o, ho, hlt⟩ := h
  refine ⟨o, ho, ?_⟩
  rw [Nat.shiftRight_eq_div_pow]
  have := Nat.div_pos (show 2 ^ 32 ≤ o by omega) (show 0 < 2 ^ 32 by omega)
  omega

theorem round_trip (version flags : Nat) (offs : List Nat) (hv : version < 256)
    (hf : flags < 16777216) (hn : offs.length < 536869888)
    (ho : ∀ o ∈ offs, o < 18446744073709551616) :
    ∃ t, BoxRoundTrip (calcSize offs) (serialize version flags offs) parseBody ((version, flags), t)
      (layout version flags offs) ∧ Rep t offs := by
  by_cases h0 : offs = []
  · subst h0
    refine ⟨⟨0, 0, []⟩, ?_, ⟨rfl, by simp, by simp⟩⟩
    have e : layout version flags [] =
        fullBox typeStco version flags (be 4 0) := by
      unfold layout; rw [if_pos (by simp)]; rfl
    rw [e]
    unfold serialize serializeAs
    refine BoxRoundTrip.ofFull (payload := be 4 0) ?_ ?_ (by decide) (by decide) (by decide) (by decide)
    · have : Emits (put32 0 ;; W.skip) (be 4 0 ++ []) := (emits_put32 0).seq emits_skip
      rw [List.append_nil] at this
      exact (emits_put32 0).then (x := be 4 0) (y := []) (by
        have := emits_skip.thenAssert
        exact this)
    · apply Parses.at
      refine (parses_versionFlags hv hf).bind ((parses_get32' (by omega)).bind_nil ?_)
      rw [if_pos rfl]
      exact parses_pure _
  · have hpos := List.length_pos_iff.mpr h0
    by_cases hs : ∀ o ∈ offs, o < 2 ^ 32
    · have hlen : (offs.flatMap (be 4)).length = 4 * offs.length := flatMap_length_const offs (by simp)
      refine ⟨⟨offs.length, offs.length * 8 % 4294967296, offs⟩, ?_, ⟨rfl, by simp, by simp⟩⟩
      unfold layout serialize serializeAs
      rw [if_pos hs, boxType_small hs, if_pos rfl]
      have hsz : calcSize offs = 16 + 4 * offs.length := by
        unfold calcSize; rw [boxType_small hs, if_pos rfl]; omega
      refine BoxRoundTrip.ofFull ?_ ?_ (by simp only [List.length_append, be_length, hlen]; omega)
        (by omega) (by decide) (by decide)
      · refine (emits_put32 _).then (Emits.thenAssert (Emits.each offs fun o ho => ?_))
        rw [Nat.mod_eq_of_lt (hs o ho)]
        exact emits_put32 o
      · apply Parses.at
        refine (parses_versionFlags hv hf).bind ((parses_get32' (by omega)).bind ?_)
        rw [if_neg (by omega), if_pos rfl]
        exact (parses_repeat offs (be 4) (fun x hx => parses_get32' (hs x hx)) rfl).bind_nil (parses_pure _)
    · have hlen : (offs.flatMap (be 8)).length = 8 * offs.length := flatMap_length_const offs (by simp)
      have hne : ¬ typeCo64 = typeStco := by decide
      refine ⟨⟨offs.length, offs.length * 8 % 4294967296, offs⟩, ?_, ⟨rfl, by simp, by simp⟩⟩
      unfold layout serialize serializeAs
      rw [if_neg hs, boxType_large hs, if_neg hne, if_pos rfl]
      have hsz : calcSize offs = 16 + 8 * offs.length := by
        unfold calcSize; rw [boxType_large hs, if_neg hne]; omega
      refine BoxRoundTrip.ofFull ?_ ?_ (by simp only [List.length_append, be_length, hlen]; omega)
        (by omega) (by decide) (by decide)
      · exact (emits_put32 _).then (Emits.thenAssert (Emits.each offs fun o ho => emits_put64 o))
      · apply Parses.at
        refine (parses_versionFlags hv hf).bind ((parses_get32' (by omega)).bind ?_)
        rw [if_neg (by omega), if_neg hne, if_pos rfl]
        exact (parses_repeat offs (be 8) (fun x hx => parses_get64' (ho x hx)) rfl).bind_nil (parses_pure _)

/-- For every sequence of additions (each with the offset and what `realloc` leaves in new memory):
the table holds exactly the offsets added; it is written in the layout of the standard, with 64-bit
offsets exactly when some offset needs them, in exactly the computed number of bytes; and the
parsed table gives back every offset. Chunks are numbered from 1 in the library. -/
theorem c14_chunk_offsets (version flags : Nat) (as : List (Nat × (Nat → Nat))) (offs : List Nat)
    (hoffs : offs = as.map Prod.fst) (hv : version < 256) (hf : flags < 16777216)
    (hn : offs.length < 536869888) (ho : ∀ o ∈ offs, o < 18446744073709551616) :
    ∃ t t', runAll addOne create as = .ok t ∧
      used t = .ok offs ∧
      (∀ (c o : Nat), offs[c]? = some o → getChunkOffset t (c + 1) = .ok o ∧ getChunkOffset t' (c + 1) = .ok o) ∧
      (∀ c, c = 0 ∨ offs.length < c → getChunkOffset t c = .err .badParam ∧ getChunkOffset t' c = .err .badParam) ∧
      BoxRoundTrip (calcSize offs) (serialize version flags offs) parseBody ((version, flags), t')
        (layout version flags offs) := by
  subst hoffs
  obtain ⟨t, h1, h2⟩ := addAll_ok as create [] inv_create (by simpa using hn)
  simp only [List.nil_append] at h2
  obtain ⟨t', g1, g2⟩ := round_trip version flags _ hv hf hn ho
  have key : ∀ (r : Stco), Rep r (as.map Prod.fst) →
      (∀ (c o : Nat), (as.map Prod.fst)[c]? = some o → getChunkOffset r (c + 1) = .ok o) ∧
      (∀ c, c = 0 ∨ (as.map Prod.fst).length < c → getChunkOffset r c = .err .badParam) := by
    intro r hr
    refine ⟨fun c o hc => ?_, fun c hc => ?_⟩
    · obtain ⟨hlt, rfl⟩ := List.getElem?_eq_some_iff.mp hc
      rw [hr.getChunkOffset, dif_pos ⟨by omega, hlt⟩]
      rfl
    · rw [hr.getChunkOffset, dif_neg (by omega)]
  have k1 := key t h2.toRep
  have k2 := key t' g2
  exact ⟨t, t', h1, h2.toRep.used, fun c o hc => ⟨k1.1 c o hc, k2.1 c o hc⟩,
    fun c hc => ⟨k1.2 c hc, k2.2 c hc⟩, g1⟩

/-- Two offsets, one of them beyond 32 bits: written as `co64`. -/
example : runW (calcSize [48, 4294967296 + 7]) (serialize 0 0 [48, 4294967296 + 7]) =
    .ok [0, 0, 0, 32, 0x63, 0x6f, 0x36, 0x34, 0, 0, 0, 0, 0, 0, 0, 2,
      0, 0, 0, 0, 0, 0, 0, 48, 0, 0, 0, 1, 0, 0, 0, 7] := by decide

example : ∃ t t', runAll addOne create
      [(48, fun _ => 1), (4294967295, fun _ => 1)] = .ok t ∧
    BoxRoundTrip 24 (serialize 0 0 [48, 4294967295]) parseBody ((0, 0), t') (layout 0 0 [48, 4294967295]) := by
  obtain ⟨t, t', h1, _, _, _, h5⟩ := c14_chunk_offsets 0 0 [(48, fun _ => 1), (4294967295, fun _ => 1)] _ rfl
    (by omega) (by omega) (by simp) (by simp)
  exact ⟨t, t', h1, h5⟩

end Verif.Stco
