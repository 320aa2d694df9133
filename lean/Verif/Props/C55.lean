import Verif.Lemmas.Config

/-!
# C55: parameter sets of a decoder configuration are returned as added

AVC. The HEVC and VVC boxes are in `C55Hevc` and `C55Vvc`.
-/

namespace Verif.Config

namespace Avc

/-- The configuration record of ISO/IEC 14496-15, 5.3.3.1. -/
def record (c : Avc) : Bytes :=
  be 1 1 ++ (be 1 c.profile ++ (be 1 c.compatibility ++ (be 1 c.level ++
    (be 1 ((if c.complete then 128 else 0) + 124 + (c.lengthSize - 1)) ++
    (be 1 (224 + c.sps.length) ++ (c.sps.flatMap nalBytes ++
    (be 1 c.pps.length ++ (c.pps.flatMap nalBytes ++
    (if c.profile ∈ [100, 110, 122, 144] then
      be 1 (252 + c.chroma) ++ (be 1 (248 + c.luma) ++ (be 1 (248 + c.chromaDepth) ++
      (be 1 c.spsext.length ++ c.spsext.flatMap nalBytes)))
     else [])))))))))

/-- The box with the record. -/
def layout (c : Avc) : Bytes := box (fcc 'a' 'v' 'c' 'C') (record c)

/-- Values fit their fields; the fields that only the higher profiles have are unset in the other
profiles. -/
structure Fits (c : Avc) : Prop where
  profile : c.profile < 256
  compatibility : c.compatibility < 256
  level : c.level < 256
  lengthSize : 1 ≤ c.lengthSize ∧ c.lengthSize ≤ 4
  chroma : c.chroma < 4
  luma : c.luma < 8
  chromaDepth : c.chromaDepth < 8
  sps : c.sps.length < 32
  pps : c.pps.length < 32
  spsext : c.spsext.length < 256
  sets : ∀ b, b ∈ c.sps ∨ b ∈ c.pps ∨ b ∈ c.spsext → b.length < 65536
  plain : c.profile ∉ [100, 110, 122, 144] →
    c.chroma = 0 ∧ c.luma = 0 ∧ c.chromaDepth = 0 ∧ c.spsext = []

theorem high_iff (c : Avc) : c.high = true ↔ c.profile ∈ [100, 110, 122, 144] := by
  simp [high, or_assoc]

theorem byte_size : ∀ (b : Bool) (n : Fin 4),
    ((if b then 0x80 else 0) ||| 0x7C ||| (n.val &&& 3)) = (if b then 128 else 0) + 124 + n.val := by decide

theorem byte_sps : ∀ n : Fin 32, (0xE0 ||| (n.val &&& 0x1F)) = 224 + n.val := by decide
theorem byte_chroma : ∀ n : Fin 4, (0xFC ||| (n.val &&& 3)) = 252 + n.val := by decide
theorem byte_depth : ∀ n : Fin 8, (0xF8 ||| (n.val &&& 7)) = 248 + n.val := by decide

theorem unbyte_size : ∀ (b : Bool) (n : Fin 4),
    decide (((if b then 128 else 0) + 124 + n.val) &&& 0x80 ≠ 0) = b ∧
    ((if b then 128 else 0) + 124 + n.val) &&& 3 = n.val := by decide
theorem unbyte_sps : ∀ n : Fin 32, (224 + n.val) &&& 0x1F = n.val := by decide
theorem unbyte_chroma : ∀ n : Fin 4, (252 + n.val) &&& 3 = n.val := by decide
theorem unbyte_depth : ∀ n : Fin 8, (248 + n.val) &&& 7 = n.val := by decide

theorem shift5 {n : Nat} (h : n < 32) : n >>> 5 = 0 := by
  rw [Nat.shiftRight_eq_div_pow]; omega

/-- The computed size. -/
theorem calcSize_eq {c : Avc} (h : Fits c) : calcSize c = .ok (layout c).length := by
  have h1 := nalsSize_le (l := c.sps) fun b hb => h.sets b (.inl hb)
  have h2 := nalsSize_le (l := c.pps) fun b hb => h.sets b (.inr (.inl hb))
  have h3 := nalsSize_le (l := c.spsext) fun b hb => h.sets b (.inr (.inr hb))
  have h4 := h.sps; have h5 := h.pps; have h6 := h.spsext
  unfold calcSize
  rw [shift5 h.sps, shift5 h.pps, if_neg (by simp), if_neg (by simp)]
  congr 1
  by_cases hh : c.profile ∈ [100, 110, 122, 144]
  · have hh' := (high_iff c).2 hh
    simp only [layout, record, box, hh, hh', if_true, List.length_append, be_length, nals_length]
    omega
  · have hh' : c.high = false := by
      cases e : c.high
      · rfl
      · exact absurd ((high_iff c).1 e) hh
    simp only [layout, record, box, hh, hh', if_false, List.length_append, be_length, nals_length, List.length_nil,
      Bool.false_eq_true]
    omega

/-- What is written, for sets of any size. -/
theorem emits_layout {c : Avc} (size : Nat) (hl : 1 ≤ c.lengthSize ∧ c.lengthSize ≤ 4) (hc : c.chroma < 4)
    (hu : c.luma < 8) (hd : c.chromaDepth < 8) (hs : c.sps.length < 32) :
    EmitsFull (serialize size c) ((be 4 size ++ be 4 type) ++ record c) := by
  have hls : pred32 c.lengthSize = c.lengthSize - 1 := by
    unfold pred32; rw [if_neg (by omega)]
  have k1 := byte_size c.complete ⟨c.lengthSize - 1, by omega⟩
  have k2 := byte_sps ⟨_, hs⟩
  have k3 := byte_chroma ⟨_, hc⟩
  have k4 := byte_depth ⟨_, hu⟩
  have k5 := byte_depth ⟨_, hd⟩
  simp only at k1 k2 k3 k4 k5
  unfold serialize
  rw [shift5 hs, if_neg (show ¬ ((0 : Nat) ≠ 0) by simp), hls, k1, k2, k3, k4, k5]
  refine (emits_serBase _ _).then ?_
  refine (emits_put8 _).then ((emits_put8 _).then ((emits_put8 _).then ((emits_put8 _).then ((emits_put8 _).then
    ((emits_put8 _).then ((emits_nals _).then ((emits_put8 _).then ((emits_nals _).then
    (Emits.thenAssert ?_)))))))))
  by_cases hh : c.profile ∈ [100, 110, 122, 144]
  · simp only [(high_iff c).2 hh, hh, if_true]
    exact (emits_put8 _).seq ((emits_put8 _).seq ((emits_put8 _).seq ((emits_put8 _).seq (emits_nals _))))
  · have hh' : c.high = false := by
      cases e : c.high
      · rfl
      · exact absurd ((high_iff c).1 e) hh
    simp only [hh', hh, if_false, Bool.false_eq_true]
    exact emits_skip

/-- A configuration in range survives being written and parsed. -/
theorem c55_avc_round_trip (c : Avc) (h : Fits c) :
    BoxRoundTrip (layout c).length (serialize (layout c).length c) parse c (layout c) := by
  have hlen : (layout c).length < 4294967296 := by
    have h1 := nalsSize_le (l := c.sps) fun b hb => h.sets b (.inl hb)
    have h2 := nalsSize_le (l := c.pps) fun b hb => h.sets b (.inr (.inl hb))
    have h3 := nalsSize_le (l := c.spsext) fun b hb => h.sets b (.inr (.inr hb))
    have h4 := h.sps; have h5 := h.pps; have h6 := h.spsext
    by_cases hh : c.profile ∈ [100, 110, 122, 144] <;>
      simp only [layout, record, box, hh, if_true, if_false, List.length_append, be_length, nals_length, List.length_nil] <;>
      omega
  have u1 := unbyte_size c.complete ⟨c.lengthSize - 1, by have := h.lengthSize; omega⟩
  have u2 := unbyte_sps ⟨_, h.sps⟩
  have u3 := unbyte_chroma ⟨_, h.chroma⟩
  have u4 := unbyte_depth ⟨_, h.luma⟩
  have u5 := unbyte_depth ⟨_, h.chromaDepth⟩
  simp only at u1 u2 u3 u4 u5
  have b1 : (if c.complete then 128 else 0) + 124 + (c.lengthSize - 1) < 256 := by
    have := h.lengthSize; split <;> omega
  refine BoxRoundTrip.of (type := type) (emits_layout _ h.lengthSize h.chroma h.luma h.chromaDepth h.sps) ?_
    (by simp only [layout, box, List.length_append, be_length]) hlen (by decide) (by decide)
  · apply Parses.at
    unfold parse
    refine (parses_get8' (by omega)).bind ?_
    rw [if_neg (by simp)]
    refine (parses_get8' h.profile).bind ((parses_get8' h.compatibility).bind ((parses_get8' h.level).bind
      ((parses_get8' b1).bind ((parses_get8' (by have := h.sps; omega)).bind ?_))))
    rw [u2]
    refine (parses_nals (fun b hb => h.sets b (.inl hb)) rfl).bind ?_
    refine (parses_get8' (by have := h.pps; omega)).bind ?_
    refine (parses_nals (fun b hb => h.sets b (.inr (.inl hb))) rfl).bind ?_
    have e4 : c.lengthSize - 1 + 1 = c.lengthSize := by have := h.lengthSize; omega
    simp only [u1.1, u1.2, e4]
    change Parses (if c.high = true then _ else _) _ _
    by_cases hh : c.profile ∈ [100, 110, 122, 144]
    · rw [if_pos ((high_iff _).2 hh), if_pos hh]
      unfold getHigh
      refine (parses_get8' (by have := h.chroma; omega)).bind ((parses_get8' (by have := h.luma; omega)).bind
        ((parses_get8' (by have := h.chromaDepth; omega)).bind ((parses_get8' h.spsext).bind ?_)))
      refine Parses.bind_nil (parses_nals (fun b hb => h.sets b (.inr (.inr hb))) rfl) ?_
      simp only [u3, u4, u5]
      exact parses_pure _
    · rw [if_neg (fun e => hh ((high_iff _).1 e)), if_neg hh]
      obtain ⟨p1, p2, p3, p4⟩ := h.plain hh
      have : (⟨c.profile, c.compatibility, c.level, c.lengthSize, c.complete, c.sps, c.pps, 0, 0, 0, []⟩ : Avc) = c := by
        cases c; simp_all
      simp only [create, this]
      exact parses_pure _

/-! ## Sets added one by one -/

theorem write_eq {c : Avc} (h : Fits c) : write c = .ok (layout c) := by
  unfold write
  rw [calcSize_eq h]
  exact (c55_avc_round_trip c h).write

theorem read_eq {c : Avc} (h : Fits c) : read (layout c) = .ok c := by
  obtain ⟨hd, e⟩ := (c55_avc_round_trip c h).read []
  rw [List.append_nil] at e
  unfold read
  rw [e]

/-- A configuration with the sets `adds` after those it has. -/
def plus (c : Avc) (adds : List (Nat × Bytes)) : Avc :=
  { c with
    sps := c.sps ++ setsOf adds 1
    pps := c.pps ++ setsOf adds 2
    spsext := c.spsext ++ setsOf adds 3 }

theorem plus_add (c : Avc) (adds : List (Nat × Bytes)) {k : Nat} (b : Bytes) (hk : k ∈ [1, 2, 3]) :
    add (plus c adds) k b = .ok (plus c (adds ++ [(k, b)])) := by
  simp only [List.mem_cons, List.not_mem_nil, or_false] at hk
  rcases hk with rfl | rfl | rfl <;>
    simp [add, plus, setsOf_append, setsOf_one]

/-- Fewer sets fit as well. -/
theorem Fits.prefix {c : Avc} {a b : List (Nat × Bytes)} (h : Fits (plus c (a ++ b))) : Fits (plus c a) := by
  obtain ⟨h1, h2, h3, h4, h5, h6, h7, h8, h9, h10, h11, h12⟩ := h
  simp only [plus, setsOf_append, List.length_append, List.mem_append] at h1 h2 h3 h4 h5 h6 h7 h8 h9 h10 h11 h12
  refine ⟨h1, h2, h3, h4, h5, h6, h7, ?_, ?_, ?_, ?_, ?_⟩
  · simp only [plus, List.length_append]; omega
  · simp only [plus, List.length_append]; omega
  · simp only [plus, List.length_append]; omega
  · intro x hx
    simp only [plus, List.mem_append] at hx
    refine h11 x ?_
    rcases hx with (hx | hx) | (hx | hx) | (hx | hx) <;> simp [hx]
  · intro hp
    obtain ⟨p1, p2, p3, p4⟩ := h12 hp
    simp only [List.append_eq_nil_iff] at p4
    exact ⟨p1, p2, p3, by simp [plus, p4.1, p4.2.1]⟩

theorem addStored_all (c : Avc) (adds : List (Nat × Bytes)) (hk : ∀ a ∈ adds, a.1 ∈ [1, 2, 3])
    (h : Fits (plus c adds)) :
    runAll addStored (layout (plus c [])) adds = .ok (layout (plus c adds)) := by
  have key : ∀ l d : List (Nat × Bytes), d ++ l = adds →
      runAll addStored (layout (plus c d)) l = .ok (layout (plus c adds)) := by
    intro l
    induction l with
    | nil => intro d e; rw [List.append_nil] at e; rw [e]; rfl
    | cons a l ih =>
      intro d e
      have h1 : Fits (plus c d) := by rw [← e] at h; exact h.prefix
      have h2 : Fits (plus c (d ++ [a])) := by
        have : (d ++ [a]) ++ l = adds := by rw [← e]; simp
        rw [← this] at h; exact h.prefix
      have hstep : addStored (layout (plus c d)) a = .ok (layout (plus c (d ++ [a]))) := by
        unfold addStored
        rw [read_eq h1, bind_ok, plus_add c d a.2 (hk a (by rw [← e]; simp)), bind_ok]
        exact write_eq h2
      simp only [runAll, hstep, Res.bind]
      exact ih _ (by rw [← e]; simp)
  exact key adds [] rfl

/-- **AVC.** Sets are added one by one to a stored configuration, which is parsed and written again
each time. As long as their numbers and sizes fit the fields, each of them is returned by its kind
and number. -/
theorem c55_avc_sets (c : Avc) (hc : c.sps = [] ∧ c.pps = [] ∧ c.spsext = [])
    (adds : List (Nat × Bytes)) (hk : ∀ a ∈ adds, a.1 = 1 ∨ a.1 = 2 ∨ a.1 = 3)
    (hf : c.profile < 256 ∧ c.compatibility < 256 ∧ c.level < 256 ∧ 1 ≤ c.lengthSize ∧ c.lengthSize ≤ 4 ∧
      c.chroma < 4 ∧ c.luma < 8 ∧ c.chromaDepth < 8)
    (hp : c.profile ∉ [100, 110, 122, 144] →
      c.chroma = 0 ∧ c.luma = 0 ∧ c.chromaDepth = 0 ∧ setsOf adds 3 = [])
    (h1 : (setsOf adds 1).length < 32) (h2 : (setsOf adds 2).length < 32) (h3 : (setsOf adds 3).length < 256)
    (hs : ∀ a ∈ adds, a.2.length < 65536) :
    ∃ h0 h : Bytes, write c = .ok h0 ∧ runAll addStored h0 adds = .ok h ∧
      ∀ kind index, kind = 1 ∨ kind = 2 ∨ kind = 3 →
        getStored h kind index = answer (setsOf adds kind) index := by
  obtain ⟨e1, e2, e3⟩ := hc
  have hset : ∀ k b, b ∈ setsOf adds k → b.length < 65536 := by
    intro k b hb
    simp only [setsOf, List.mem_map, List.mem_filter] at hb
    obtain ⟨a, ⟨ha, _⟩, rfl⟩ := hb
    exact hs a ha
  have hfit : Fits (plus c adds) := by
    obtain ⟨f1, f2, f3, f4, f5, f6, f7, f8⟩ := hf
    refine ⟨f1, f2, f3, ⟨f4, f5⟩, f6, f7, f8, ?_, ?_, ?_, ?_, ?_⟩
    · simpa [plus, e1] using h1
    · simpa [plus, e2] using h2
    · simpa [plus, e3] using h3
    · intro b hb
      simp only [plus, e1, e2, e3, List.nil_append] at hb
      rcases hb with hb | hb | hb <;> exact hset _ _ hb
    · intro h
      obtain ⟨a1, a2, a3, a4⟩ := hp h
      exact ⟨a1, a2, a3, by simp [plus, e3, a4]⟩
  have e0 : plus c [] = c := by simp [plus, setsOf]
  have hfit0 : Fits c := by
    have := Fits.prefix (a := []) (b := adds) (c := c) (by simpa using hfit)
    rwa [e0] at this
  refine ⟨layout c, layout (plus c adds), write_eq hfit0, ?_, ?_⟩
  · have := addStored_all c adds (fun a ha => by simpa using hk a ha) hfit
    rwa [e0] at this
  · intro kind index hkind
    unfold getStored
    rw [read_eq hfit, bind_ok]
    rcases hkind with rfl | rfl | rfl
    · simp only [get, plus, e1, List.nil_append]
      exact nth_eq (by omega) _
    · simp only [get, plus, e2, List.nil_append]
      exact nth_eq (by omega) _
    · simp only [get, plus, e3, List.nil_append]
      exact nth_eq (by omega) _

/-- Two sequence and two picture parameter sets and an extension, in a high profile: the conditions
hold, and the second picture parameter set comes back. -/
example : ∃ h, runAll addStored (layout { create with profile := 100, lengthSize := 4 })
    [(1, [0x67, 1]), (2, [0x68]), (3, [0x6D, 9]), (2, [0x68, 2, 3]), (1, [0x67])] = .ok h ∧
    getStored h 2 2 = .ok [0x68, 2, 3] ∧ getStored h 2 3 = .err .badParam ∧ getStored h 3 1 = .ok [0x6D, 9] :=
  ⟨layout ⟨100, 0, 0, 4, true, [[0x67, 1], [0x67]], [[0x68], [0x68, 2, 3]], 0, 0, 0, [[0x6D, 9]]⟩,
    by decide +kernel, by decide +kernel, by decide +kernel, by decide +kernel⟩

/-! ## Where the sets are lost -/

/-- Outside the listed profiles an extension set is accepted, but it is not written: it cannot be
read back, and no error is raised. 244 is the High 4:4:4 Predictive profile, which the standard does
allow extension sets in (the code has 144 in its place). -/
theorem c55_not_avc_extension (c : Avc) (h : Fits c) (hp : c.profile ∉ [100, 110, 122, 144]) (b : Bytes) :
    addStored (layout c) (3, b) = .ok (layout c) ∧ getStored (layout c) 3 1 = .err .badParam := by
  have hh : c.high = false := by
    cases e : c.high
    · rfl
    · exact absurd ((high_iff c).1 e) hp
  have hw : write { c with spsext := c.spsext ++ [b] } = write c := by
    have hh' : (Avc.high { c with spsext := c.spsext ++ [b] }) = false := hh
    unfold write calcSize serialize
    simp only [hh, hh', Bool.false_eq_true, if_false]
  constructor
  · unfold addStored
    rw [read_eq h, bind_ok]
    have e1 : add c 3 b = .ok { c with spsext := c.spsext ++ [b] } := by simp [add]
    simp only [e1, bind_ok]
    exact hw.trans (write_eq h)
  · unfold getStored
    rw [read_eq h, bind_ok]
    simp only [get, (h.plain hp).2.2.2]
    rfl

example : Fits { create with profile := 244, lengthSize := 4, sps := [[0x67]], pps := [[0x68]] } := by
  constructor <;> simp [create]

/-- The size of a set is stored in 16 bits: from 65536 bytes on the box is written without error, and
what is read back is another set, here an empty one. (The first byte of the lost set is taken as the
number of picture parameter sets; with another value there the parser goes on to read those.) -/
theorem c55_not_avc_long (b : Bytes) (hb : b.length = 65535) :
    ∃ h, addStored (layout { create with profile := 66, lengthSize := 4 }) (1, 0 :: b) = .ok h ∧
      getStored h 1 1 = .ok [] := by
  have f0 : Fits ⟨66, 0, 0, 4, true, [], [], 0, 0, 0, []⟩ := by constructor <;> simp
  have hlr : (record ⟨66, 0, 0, 4, true, [0 :: b], [], 0, 0, 0, []⟩).length = 65545 := by
    simp [record, nalBytes, hb]
  refine ⟨layout ⟨66, 0, 0, 4, true, [0 :: b], [], 0, 0, 0, []⟩, ?_, ?_⟩
  · have e1 : add ⟨66, 0, 0, 4, true, [], [], 0, 0, 0, []⟩ 1 (0 :: b) =
      .ok ⟨66, 0, 0, 4, true, [0 :: b], [], 0, 0, 0, []⟩ := by simp [add]
    have e2 : calcSize ⟨66, 0, 0, 4, true, [0 :: b], [], 0, 0, 0, []⟩ = .ok 65553 := by
      simp [calcSize, high, nalsSize, hb]
    have e3 : runW 65553 (serialize 65553 ⟨66, 0, 0, 4, true, [0 :: b], [], 0, 0, 0, []⟩) =
        .ok ((be 4 65553 ++ be 4 type) ++ record ⟨66, 0, 0, 4, true, [0 :: b], [], 0, 0, 0, []⟩) := by
      refine (emits_layout 65553 (by simp) (by simp) (by simp) (by simp) (by simp)).runW ?_ (by decide)
      simp [record, nalBytes, hb]
    unfold addStored
    change (read (layout ⟨66, 0, 0, 4, true, [], [], 0, 0, 0, []⟩)).bind _ = _
    simp only [read_eq f0, bind_ok, e1, write, e2, e3]
    simp only [layout, box, hlr]
    rfl
  · have e1 : layout ⟨66, 0, 0, 4, true, [0 :: b], [], 0, 0, 0, []⟩ =
        (be 4 65553 ++ be 4 type) ++ ([1, 66, 0, 0, 255, 225, 0, 0, 0] ++ (b ++ [0])) := by
      simp only [layout, box, hlr]
      simp [record, nalBytes, be, hb]
      decide
    have e2 : ParsesAt (parse ⟨65553, type, [], 0, 8⟩) 8 [1, 66, 0, 0, 255, 225, 0, 0, 0]
        ⟨66, 0, 0, 4, true, [[]], [], 0, 0, 0, []⟩ := by
      intro r; rfl
    unfold getStored read
    rw [e1, parseAtom_left e2 (by simp [hb]) (by decide) (by decide) (by decide)]
    rfl

end Avc

end Verif.Config
