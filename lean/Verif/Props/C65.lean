import Verif.Lemmas.Bits
import Verif.Spec.ParamSet
import Verif.Model.ParamSet

/-!
# C65: The decoder configuration says what the sequence parameter set says
-/

namespace Verif.ParamSet

open Bits Config

/-! ## More readers -/

theorem u_add (n m v : Nat) : u (n + m) v = u n (v / 2 ^ m) ++ u m v := by
  induction n with
  | zero => rw [Nat.zero_add]; rfl
  | succ n ih =>
    rw [show n + 1 + m = (n + m) + 1 by omega, u, u, ih, Nat.div_div_eq_div_mul, ← Nat.pow_add, Nat.add_comm n m]
    rfl

theorem reads_byteL {l : List Bool} (hl : l.length = 8) : Reads byte l (value l) := by
  have hv := value_lt l
  rw [hl] at hv
  refine (reads_get hl (by decide) (by decide)).bind_nil ?_
  rw [Nat.mod_eq_of_lt hv]
  exact reads_pure _

theorem reads_bytes : ∀ (n : Nat) {l : List Bool}, l.length = 8 * n → ∃ v, Reads (times n byte) l v := by
  intro n
  induction n with
  | zero =>
    intro l hl
    have : l = [] := List.length_eq_zero_iff.1 (by omega)
    subst this
    exact ⟨[], reads_pure _⟩
  | succ n ih =>
    intro l hl
    obtain ⟨v, hv⟩ := ih (l := l.drop 8) (by rw [List.length_drop]; omega)
    refine ⟨value (l.take 8) :: v, ?_⟩
    have h := (reads_byteL (l := l.take 8) (by rw [List.length_take]; omega)).bind (f := fun x => do
      let xs ← times n byte
      pure (x :: xs)) (hv.bind_nil (reads_pure _))
    rwa [List.take_append_drop] at h

theorem reads_skip_bytes (n : Nat) {l : List Bool} (hl : l.length = 8 * n) : Reads (skip n byte) l () := by
  obtain ⟨v, hv⟩ := reads_bytes n hl
  exact hv.bind_nil (reads_pure _)

theorem reads_skip1 {p : B Nat} {l : List Bool} {v : Nat} (h : Reads p l v) : Reads (skip 1 p) l () := by
  have h1 : Reads (times 1 p) l [v] := h.bind_nil ((reads_pure _).bind_nil (reads_pure _))
  exact h1.bind_nil (reads_pure _)

theorem reads_if {c : Prop} [Decidable c] {p : B Unit} {l : List Bool} (h : c → Reads p l ()) :
    Reads (if c then p else pure ()) (if c then l else []) () := by
  by_cases hc : c
  · rw [if_pos hc, if_pos hc]; exact h hc
  · rw [if_neg hc, if_neg hc]; exact reads_pure _

theorem reads_cast {α : Type} {p : B α} {l m : List Bool} {v w : α} (h : Reads p l v) (hl : l = m) (hv : v = w) : Reads p m w := by
  subst hl hv; exact h

/-- Running a reader on a parameter set. -/
theorem run_reads {α : Type} {p : B α} {l rest : List Bool} {v : α} (h : ReadsAt p 0 l v) (prevent : Bool) {mem R : Bytes}
    (hm : mem = if prevent then escape 0 R else R) (hR : bitsOf R = l ++ rest) (hne : R ≠ []) (hlen : mem.length < 2 ^ 25) :
    ∃ b b', init prevent mem = .ok b ∧ p b = .ok (v, b') := by
  obtain ⟨b, e, r⟩ := rep_init prevent hlen hne hm
  rw [hR] at r
  obtain ⟨b', e', _⟩ := h b rest r
  exact ⟨b, b', e, e'⟩

theorem ne_nil_of_bits {R : Bytes} {l rest : List Bool} (hR : bitsOf R = l ++ rest) (hl : l ≠ []) : R ≠ [] := by
  rintro rfl
  have h := congrArg List.length hR
  have := List.length_pos_iff.2 hl
  simp only [bitsOf, List.flatMap_nil, List.length_nil, List.length_append] at h
  omega

/-! ## H.264 -/

theorem high_eq (s : AvcSps) (c : Avc) (h : c.profile = s.profile) : c.high = decide s.high := by
  unfold Avc.high AvcSps.high
  rw [h, Bool.eq_iff_iff]
  simp only [Bool.or_eq_true, beq_iff_eq, or_assoc]
  exact decide_eq_true_iff.symm

/-- The configuration for an H.264 set. -/
def avcConfig (s : AvcSps) (lengthSize : Nat) : Avc :=
  { Avc.create with
    lengthSize := lengthSize, profile := s.profile, compatibility := s.compatibility, level := s.level
    chroma := if s.high then s.chroma else 0
    luma := if s.high then s.luma else 0
    chromaDepth := if s.high then s.chromaDepth else 0 }

theorem first_byte (a : Nat) : value ([false] ++ u 2 a ++ u 5 7) &&& 0x1F = 7 := by
  rw [value_append, value_append, value_u, value_u, u_length, u_length]
  rw [show (0x1F : Nat) = 2 ^ 5 - 1 from rfl, Nat.and_two_pow_sub_one_eq_mod]
  simp only [value, List.foldl_cons, List.foldl_nil, Bool.toNat_false]
  omega

theorem reads_avc (s : AvcSps) (hs : s.Ok) (h3 : s.high → s.chroma ≠ 3) (lengthSize : Nat) :
    Reads (avcFields lengthSize) s.bits (avcConfig s lengthSize) := by
  obtain ⟨h1, h2, h4, h5, h6, h7, h8⟩ := hs
  have e : s.bits = ([false] ++ u 2 s.refIdc ++ u 5 7) ++ (u 8 s.profile ++ (u 8 s.compatibility ++ (u 8 s.level ++ (golomb s.id ++
      if s.high then golomb s.chroma ++ (golomb s.luma ++ golomb s.chromaDepth) else [])))) := by
    unfold AvcSps.bits
    simp only [List.append_assoc]
    by_cases hh : s.high
    · simp only [if_pos hh, if_neg (h3 hh), List.nil_append]
    · simp only [if_neg hh]
  rw [e]
  refine (reads_byteL (by simp)).bind ?_
  rw [first_byte]
  simp only [ne_eq, not_true, if_false]
  refine (reads_byte h1).bind ((reads_byte h2).bind ((reads_byte h4).bind ((reads_ue (by omega)).bind ?_)))
  rw [high_eq s _ rfl]
  unfold avcConfig
  by_cases hh : s.high
  · simp only [hh, decide_true, if_true]
    exact (reads_ue (by omega)).bind ((reads_ue (by omega)).bind ((reads_ue (by omega)).bind_nil (reads_pure _)))
  · simp only [hh, decide_false, if_false, Bool.false_eq_true]
    exact reads_pure _

theorem avc_bits_ne (s : AvcSps) : s.bits ≠ [] := by simp [AvcSps.bits]

/-- **C65, H.264.** The unit `nal` starts with the fields of the set; they need no emulation prevention, the level not being 0. -/
theorem c65_avc_partial (s : AvcSps) (hs : s.Ok) (h3 : s.high → s.chroma ≠ 3) (lengthSize : Nat) (nal : Bytes) (rest : List Bool)
    (hnal : bitsOf nal = s.bits ++ rest) (hlen : nal.length < 2 ^ 25) (pps : Bytes) (ext : Option Bytes) :
    newAvc lengthSize nal (some pps) ext =
      .ok { avcConfig s lengthSize with sps := [nal], pps := [pps], spsext := ext.toList } := by
  obtain ⟨b, b', e1, e2⟩ := run_reads (reads_avc s hs h3 lengthSize 0) false (by simp) hnal (ne_nil_of_bits hnal (avc_bits_ne s)) hlen
  unfold newAvc
  rw [e1]
  simp only [Res.bind, e2]
  cases ext <;> rfl

/-- Without a picture parameter set the sequence parameter set is dropped. -/
theorem c65_avc_sps_dropped (s : AvcSps) (hs : s.Ok) (h3 : s.high → s.chroma ≠ 3) (lengthSize : Nat) (nal : Bytes) (rest : List Bool)
    (hnal : bitsOf nal = s.bits ++ rest) (hlen : nal.length < 2 ^ 25) (ext : Option Bytes) :
    newAvc lengthSize nal none ext = .ok { avcConfig s lengthSize with sps := [], pps := [], spsext := ext.toList } := by
  obtain ⟨b, b', e1, e2⟩ := run_reads (reads_avc s hs h3 lengthSize 0) false (by simp) hnal (ne_nil_of_bits hnal (avc_bits_ne s)) hlen
  unfold newAvc
  rw [e1]
  simp only [Res.bind, e2]
  cases ext <;> rfl

/-- With chroma format 3 there is one more bit, which is taken for the bit depth: with separate planes the luma depth becomes
8 and the chroma depth that of luma. -/
theorem c65_avc_444 (s : AvcSps) (hs : s.Ok) (hh : s.high) (h3 : s.chroma = 3) (hsep : s.separate = true) (lengthSize : Nat) (nal : Bytes)
    (rest : List Bool) (hnal : bitsOf nal = s.bits ++ rest) (hlen : nal.length < 2 ^ 25) (pps : Bytes) (ext : Option Bytes) :
    ∃ c, newAvc lengthSize nal (some pps) ext = .ok c ∧ c.luma = 0 ∧ c.chromaDepth = s.luma := by
  obtain ⟨h1, h2, h4, h5, h6, h7, h8⟩ := hs
  have e : s.bits ++ rest = (([false] ++ u 2 s.refIdc ++ u 5 7) ++ (u 8 s.profile ++ (u 8 s.compatibility ++ (u 8 s.level ++ (golomb s.id ++
      (golomb s.chroma ++ (golomb 0 ++ golomb s.luma))))))) ++ (golomb s.chromaDepth ++ rest) := by
    unfold AvcSps.bits
    simp only [if_pos hh, if_pos h3, hsep, List.append_assoc]
    rfl
  have hr : Reads (avcFields lengthSize) (([false] ++ u 2 s.refIdc ++ u 5 7) ++ (u 8 s.profile ++ (u 8 s.compatibility ++ (u 8 s.level ++
      (golomb s.id ++ (golomb s.chroma ++ (golomb 0 ++ golomb s.luma))))))) { avcConfig s lengthSize with luma := 0, chromaDepth := s.luma } := by
    refine (reads_byteL (by simp)).bind ?_
    rw [first_byte]
    simp only [ne_eq, not_true, if_false]
    refine (reads_byte h1).bind ((reads_byte h2).bind ((reads_byte h4).bind ((reads_ue (by omega)).bind ?_)))
    rw [high_eq s _ rfl]
    unfold avcConfig
    simp only [hh, decide_true, if_true]
    exact (reads_ue (by omega)).bind ((reads_ue (by omega)).bind ((reads_ue (by omega)).bind_nil (reads_pure _)))
  rw [e] at hnal
  obtain ⟨b, b', e1, e2⟩ := run_reads (hr 0) false (by simp) hnal (ne_nil_of_bits hnal (by simp)) hlen
  unfold newAvc
  rw [e1]
  simp only [Res.bind, e2]
  cases ext <;> exact ⟨_, rfl, rfl, rfl⟩

/-! ## H.265 -/

/-- The configuration for an H.265 set. -/
def hevcConfig (s : HevcSps) (lengthSize : Nat) : Hevc :=
  { Hevc.create with
    lengthSize1 := lengthSize - 1, nested := s.nested.toNat, profile := s.profile, compatibility := s.compatibility, level := s.level
    chroma := s.chroma, luma := s.luma, chromaDepth := s.chromaDepth }

theorem reads_compat {c : Nat} (hc : c < 2 ^ 32) : Reads hevcCompat (u 32 c) c := by
  have e : u 32 c = u 8 (c / 2 ^ 24 % 256) ++ (u 8 (c / 2 ^ 16 % 256) ++ (u 8 (c / 2 ^ 8 % 256) ++ u 8 (c % 256))) := by
    have hm : ∀ v, u 8 (v % 256) = u 8 v := by
      intro v
      simp only [u]
      congr 1
      · congr 1; omega
      congr 1
      · congr 1; omega
      congr 1
      · congr 1; omega
      congr 1
      · congr 1; omega
      congr 1
      · congr 1; omega
      congr 1
      · congr 1; omega
      congr 1
      · congr 1; omega
      congr 1
      · congr 1; omega
    rw [hm, hm, hm, hm, show (32 : Nat) = 8 + 24 from rfl, u_add, show (24 : Nat) = 8 + 16 from rfl, u_add, show (16 : Nat) = 8 + 8 from rfl, u_add]
  rw [e]
  refine (reads_byte (by omega)).bind ((reads_byte (by omega)).bind ((reads_byte (by omega)).bind ((reads_byte (by omega)).bind_nil ?_)))
  refine reads_cast (reads_pure _) rfl ?_
  generalize hA : c / 2 ^ 24 % 256 = a
  generalize hB : c / 2 ^ 16 % 256 = b
  generalize hC : c / 2 ^ 8 % 256 = d
  generalize hD : c % 256 = f
  have ha : a < 256 := by omega
  have hb : b < 256 := by omega
  have hd : d < 256 := by omega
  have hf : f < 256 := by omega
  rw [Nat.mod_eq_of_lt (show a <<< 24 < 4294967296 by rw [Nat.shiftLeft_eq]; omega),
    Nat.mod_eq_of_lt (show b <<< 16 < 4294967296 by rw [Nat.shiftLeft_eq]; omega),
    Nat.mod_eq_of_lt (show d <<< 8 < 4294967296 by rw [Nat.shiftLeft_eq]; omega)]
  have e1 : a <<< 24 ||| b <<< 16 = (a * 256 + b) <<< 16 := by
    rw [← Nat.shiftLeft_add_eq_or_of_lt (by rw [Nat.shiftLeft_eq]; omega)]
    simp only [Nat.shiftLeft_eq]; omega
  have e2 : (a * 256 + b) <<< 16 ||| d <<< 8 = ((a * 256 + b) * 256 + d) <<< 8 := by
    rw [← Nat.shiftLeft_add_eq_or_of_lt (by rw [Nat.shiftLeft_eq]; omega)]
    simp only [Nat.shiftLeft_eq]; omega
  rw [e1, e2, ← Nat.shiftLeft_add_eq_or_of_lt hf]
  simp only [Nat.shiftLeft_eq]
  omega

theorem reads_hevcFlags (x : HevcSub) : Reads hevcFlags x.flags (x.profile.isSome.toNat, x.level.isSome.toNat) :=
  (reads_flag _).bind ((reads_flag _).bind_nil (reads_pure _))

theorem reads_hevcSubs (subs : List HevcSub)
    (h : ∀ x ∈ subs, (∀ p, x.profile = some p → p.length = 88) ∧ ∀ l, x.level = some l → l < 256) :
    Reads (hevcSubs (subs.map fun x => (x.profile.isSome.toNat, x.level.isSome.toNat))) (subs.flatMap HevcSub.data) () := by
  induction subs with
  | nil => exact reads_pure _
  | cons x subs ih =>
    rw [List.flatMap_cons, HevcSub.data, List.append_assoc]
    obtain ⟨h1, h2⟩ := h x (by simp)
    refine Reads.bind (a := ()) ?_ (Reads.bind (a := ()) ?_ (ih fun y hy => h y (by simp [hy])))
    · cases hp : x.profile with
      | none => exact reads_pure _
      | some p => exact reads_skip_bytes 11 (h1 p hp)
    · cases hl : x.level with
      | none => exact reads_pure _
      | some l => exact reads_skip_bytes 1 (by simp)

theorem reads_window {w : Option (Nat × Nat × Nat × Nat)} (hw : windowOk w) {α : Type} {f : B α} {m : List Bool} {v : α} (hf : Reads f m v) :
    Reads (do
      let x ← flag
      (if x ≠ 0 then skip 4 ue else pure () : B Unit)
      f) (windowBits w ++ m) v := by
  cases w with
  | none => exact (reads_flag false).bind ((reads_pure ()).bind hf)
  | some q =>
    obtain ⟨a, b, c, d⟩ := q
    obtain ⟨h1, h2, h3, h4⟩ := hw
    simp only [windowBits, List.append_assoc]
    refine (reads_flag true).bind ?_
    have h : Reads (skip 4 ue) (golomb a ++ (golomb b ++ (golomb c ++ golomb d))) () := by
      refine Reads.bind_nil (a := [a, b, c, d]) ?_ (reads_pure _)
      refine (reads_ue (by omega)).bind (Reads.bind_nil (a := [b, c, d]) ?_ (reads_pure _))
      refine (reads_ue (by omega)).bind (Reads.bind_nil (a := [c, d]) ?_ (reads_pure _))
      refine (reads_ue (by omega)).bind (Reads.bind_nil (a := [d]) ?_ (reads_pure _))
      refine (reads_ue (by omega)).bind_nil (Reads.bind_nil (a := []) (reads_pure _) (reads_pure _))
    have := h.bind (f := fun _ => f) hf
    simp only [List.append_assoc] at this
    exact this

theorem hevc_first (b : Bool) : value ([false] ++ u 6 33 ++ [b]) >>> 1 = 33 := by cases b <;> rfl

theorem hevc_layers (vps n : Nat) (b : Bool) (hn : n < 7) :
    ((value (u 4 vps ++ u 3 n ++ [b]) &&& 0xf) >>> 1) + 1 = n + 1 ∧ value (u 4 vps ++ u 3 n ++ [b]) &&& 1 = b.toNat := by
  rw [value_append, value_append, value_u, value_u, u_length]
  rw [show (0xf : Nat) = 2 ^ 4 - 1 from rfl, Nat.and_two_pow_sub_one_eq_mod, Nat.shiftRight_eq_div_pow, Nat.and_one_is_mod]
  cases b <;> simp only [value, List.foldl_cons, List.foldl_nil, Bool.toNat_false, Bool.toNat_true, List.length_singleton] <;> omega

theorem hevc_profile (a : Nat) (t : Bool) (p : Nat) (hp : p < 32) : value (u 2 a ++ [t] ++ u 5 p) &&& 0x1f = p := by
  rw [value_append, value_append, value_u, value_u, u_length]
  rw [show (0x1f : Nat) = 2 ^ 5 - 1 from rfl, Nat.and_two_pow_sub_one_eq_mod]
  omega

theorem reads_hevc (s : HevcSps) (hs : s.Ok) (lengthSize : Nat) :
    Reads (hevcFields lengthSize) s.bits (hevcConfig s lengthSize, s.width, s.height) := by
  obtain ⟨h1, h2, h3, h4, h5, h6, h7, h8, h9, h10, h11, h12, h13⟩ := hs
  have e : s.bits = ([false] ++ u 6 33 ++ [s.layer / 2 ^ 5 % 2 == 1]) ++ ((u 5 s.layer ++ u 3 s.temporal) ++
      ((u 4 s.vps ++ u 3 s.subs.length ++ [s.nested]) ++ ((u 2 s.space ++ [s.tier] ++ u 5 s.profile) ++ (u 32 s.compatibility ++
      (s.constraints ++ (u 8 s.level ++ (s.subs.flatMap HevcSub.flags ++
      ((if s.subs = [] then [] else List.replicate (2 * (8 - s.subs.length)) false) ++ (s.subs.flatMap HevcSub.data ++
      (golomb s.id ++ (golomb s.chroma ++ ((if s.chroma = 3 then [s.separate] else []) ++ (golomb s.width ++ (golomb s.height ++
      (windowBits s.window ++ (golomb s.luma ++ golomb s.chromaDepth)))))))))))))))) := by
    unfold HevcSps.bits HevcSps.ptl
    simp only [List.append_assoc]
    rfl
  rw [e]
  refine (reads_byteL (by simp)).bind ?_
  rw [hevc_first]
  simp only [ne_eq, not_true, if_false]
  refine (reads_byteL (by simp)).bind ((reads_byteL (by simp)).bind ((reads_byteL (by simp)).bind ((reads_compat h2).bind
    ((reads_skip_bytes 6 h3).bind ((reads_byte h4).bind ?_)))))
  obtain ⟨g1, g2⟩ := hevc_layers s.vps s.subs.length s.nested h5
  rw [g1, g2, hevc_profile _ _ _ h1, Nat.add_sub_cancel]
  refine Reads.bind (reads_times s.subs HevcSub.flags _ (fun x _ => reads_hevcFlags x) rfl) ?_
  refine Reads.bind (a := ()) ?_ ?_
  · by_cases h0 : s.subs = []
    · rw [h0]; exact reads_pure _
    · have := List.length_pos_iff.2 h0
      rw [if_pos (by omega), if_neg h0]
      exact reads_skip1 (reads_get (by simp; omega) (by omega) (by omega))
  refine Reads.bind (reads_hevcSubs s.subs h6) ?_
  unfold hevcTail
  refine (reads_ue (by omega)).bind ((reads_ue (by omega)).bind (Reads.bind (a := ()) ?_ ?_))
  · exact reads_if fun _ => reads_skip1 (reads_flag s.separate)
  refine (reads_ue (by omega)).bind ((reads_ue (by omega)).bind (reads_window h11 ?_))
  exact (reads_ue (by omega)).bind ((reads_ue (by omega)).bind_nil (reads_pure _))

/-- The arrays for the sets given. -/
def hevcSets (sps : Bytes) (pps vps : Option Bytes) : List Arr :=
  [⟨1, 32, vps.toList⟩, ⟨1, 33, [sps]⟩, ⟨1, 34, pps.toList⟩] ++ (List.range 5).map fun i => ⟨1, 35 + i, []⟩

/-- **C65, H.265.** The unit is the set with its emulation prevention bytes. Missing: profile space, tier, constraint flags and number of
sub-layers, for which the configuration has no place. -/
theorem c65_hevc_partial (s : HevcSps) (hs : s.Ok) (lengthSize : Nat) (hls : lengthSize = 1 ∨ lengthSize = 2 ∨ lengthSize = 4) (R : Bytes)
    (rest : List Bool) (hR : bitsOf R = s.bits ++ rest) (hlen : (escape 0 R).length < 2 ^ 25) (pps vps : Option Bytes) :
    newHevc lengthSize (escape 0 R) pps vps = .ok
      ({ hevcConfig s lengthSize with
          count := vps.toList.length + 1 + pps.toList.length
          arrays := hevcSets (escape 0 R) pps vps }, s.width, s.height) := by
  have hne : s.bits ≠ [] := by simp [HevcSps.bits]
  obtain ⟨b, b', e1, e2⟩ := run_reads (reads_hevc s hs lengthSize 0) true (by simp) hR (ne_nil_of_bits hR hne) hlen
  unfold newHevc
  rw [if_neg (by omega), e1]
  simp only [Res.bind, e2]
  cases vps <;> cases pps <;> rfl

/-! ## H.266 -/

theorem readsAt_align (j : Nat) : ∀ (fuel k : Nat) {l : List Bool}, l.length = j → (k + j) % 8 = 0 → j < 8 → j < fuel →
    ReadsAt (alignF fuel) k l () := by
  have hcur : ∀ {b : BB} {k : Nat} {rest : List Bool}, Rep b k rest → (k + b.cur) % 8 = 0 := by
    intro b k rest r
    obtain ⟨R, _, hr⟩ := r.bits
    have h1 := congrArg List.length hr
    have h2 := r.pos
    have h3 := r.cur
    rw [List.length_append, bitsOf_length, List.length_take, u_length] at h1
    omega
  induction j with
  | zero =>
    intro fuel k l hl hk _ hf b rest r
    have := hcur r
    obtain ⟨fuel, rfl⟩ : ∃ f, fuel = f + 1 := ⟨fuel - 1, by omega⟩
    have hl : l = [] := List.length_eq_zero_iff.1 hl
    subst hl
    exact ⟨b, if_neg (by omega), r⟩
  | succ j ih =>
    intro fuel k l hl hk hj hf b rest r
    have hc := hcur r
    obtain ⟨fuel, rfl⟩ : ∃ f, fuel = f + 1 := ⟨fuel - 1, by omega⟩
    match l, hl with
    | x :: l, hl =>
      obtain ⟨b1, e1, r1⟩ := reads_flag x k b (l ++ rest) r
      obtain ⟨b2, e2, r2⟩ := ih fuel (k + 1) (l := l) (by simpa using hl) (by omega) (by omega) (by omega) b1 rest r1
      refine ⟨b2, ?_, ?_⟩
      · have e : alignF (fuel + 1) b = (flag b).bind fun r => alignF fuel r.2 := if_pos (by omega)
        rw [e, e1]
        exact e2
      · rw [List.length_cons, show k + (l.length + 1) = k + 1 + l.length by omega]
        exact r2

theorem ceilLog_le (v n : Nat) : ceilLog v ≤ n ↔ v ≤ 2 ^ n := by
  unfold ceilLog
  have := Nat.two_pow_pos n
  split
  · omega
  · rw [Nat.succ_le_iff, Nat.log2_lt (by omega)]
    omega

theorem widthF_eq (v : Nat) : ∀ (fuel n : Nat), n ≤ ceilLog v → ceilLog v ≤ n + fuel → widthF fuel v n = ceilLog v := by
  intro fuel
  induction fuel with
  | zero => intro n h1 h2; rw [widthF]; omega
  | succ fuel ih =>
    intro n h1 h2
    rw [widthF]
    have := ceilLog_le v n
    split
    · exact ih _ (by omega) (by omega)
    · omega

theorem unit_bounds {s : VvcSps} (hc : s.ctu < 3) {size : Nat} (hs : size < 2 ^ 16) :
    unitBits size s.ctb = s.unit size ∧ s.unit size ≤ 16 ∧ (size > s.ctb → 1 ≤ s.unit size) := by
  have h1 : s.ctb = 32 ∨ s.ctb = 64 ∨ s.ctb = 128 := by
    unfold VvcSps.ctb
    have : s.ctu = 0 ∨ s.ctu = 1 ∨ s.ctu = 2 := by omega
    rcases this with h | h | h <;> simp [h]
  have h2 : (size + s.ctb - 1) / s.ctb ≤ 2 ^ 16 := by
    rcases h1 with h | h | h <;> rw [h] <;> omega
  have h3 := (ceilLog_le _ 16).2 h2
  refine ⟨?_, h3, ?_⟩
  · unfold unitBits VvcSps.unit
    rw [show (size + s.ctb) % 4294967296 = size + s.ctb by omega,
      show (size + s.ctb + 4294967295) % 4294967296 = size + s.ctb - 1 by omega]
    exact widthF_eq _ _ _ (by omega) (by omega)
  · intro hgt
    have := ceilLog_le ((size + s.ctb - 1) / s.ctb) 0
    have h4 : ¬(size + s.ctb - 1) / s.ctb ≤ 2 ^ 0 := by
      rcases h1 with h | h | h <;> rw [h] at hgt ⊢ <;> omega
    unfold VvcSps.unit
    omega

theorem reads_unit {s : VvcSps} (hc : s.ctu < 3) {size : Nat} (hs : size < 2 ^ 16) (c : Prop) [Decidable c] (x : Nat) :
    Reads (vvcUnit (decide c) size s.ctb) (if c ∧ size > s.ctb then u (s.unit size) x else []) () := by
  obtain ⟨h1, h2, h3⟩ := unit_bounds hc hs
  unfold vvcUnit
  by_cases h : c ∧ size > s.ctb
  · rw [if_pos h, if_pos (by simpa using h), h1]
    exact reads_skip1 (reads_get (u_length _ _) (h3 h.2) (by omega))
  · rw [if_neg h, if_neg (by simpa using h)]
    exact reads_pure _

theorem reads_subpic {s : VvcSps} (hc : s.ctu < 3) (hw : s.width < 2 ^ 16) (hh : s.height < 2 ^ 16) (q : VvcSubpics) (n i : Nat) (p : VvcSubpic) :
    Reads (vvcSubpic s.width s.height s.ctb n q.indep.toNat q.same.toNat i) (s.subpicBits q n i p) () := by
  refine Reads.bind (a := ()) ?_ ?_
  · have e : (q.same.toNat = 0 ∨ i = 0) = (q.same = false ∨ i = 0) := by cases q.same <;> simp
    simp only [e, List.append_assoc]
    exact reads_if fun _ => (reads_unit hc hw _ _).bind ((reads_unit hc hh _ _).bind ((reads_unit hc hw _ _).bind (reads_unit hc hh _ _)))
  · have e : (q.indep.toNat = 0) = (q.indep = false) := by cases q.indep <;> simp
    simp only [e]
    exact reads_if fun _ => reads_skip1 (reads_get rfl (by decide) (by decide))

theorem reads_subpics {s : VvcSps} (hc : s.ctu < 3) (hw : s.width < 2 ^ 16) (hh : s.height < 2 ^ 16) (q : VvcSubpics) (n : Nat)
    (ps : List VvcSubpic) : ∀ i, Reads (vvcSubpics s.width s.height s.ctb n q.indep.toNat q.same.toNat ps.length i) (s.subpicsBits q n i ps) () := by
  induction ps with
  | nil => exact fun i => reads_pure _
  | cons p ps ih => exact fun i => (reads_subpic hc hw hh q n i p).bind (ih (i + 1))

theorem reads_skip {p : B Nat} (xs : List Nat) (g : Nat → List Bool) (h : ∀ x ∈ xs, Reads p (g x) (value (g x))) {n : Nat}
    (hn : xs.length = n) : Reads (skip n p) (xs.flatMap g) () :=
  (reads_times xs g (fun x => value (g x)) h hn).bind_nil (reads_pure _)

theorem reads_subpicInfo {s : VvcSps} (hs : s.Ok) (q : VvcSubpics) (hq : s.subpics = some q) :
    Reads (vvcSubpicInfo s.width s.height s.ctb) (s.subpicInfo q) () := by
  obtain ⟨h1, h2, h3, h4⟩ := hs.subpics q hq
  unfold VvcSps.subpicInfo
  simp only [List.append_assoc]
  have hg : (q.pics.length - 1 > 0) = (q.pics.length > 1) := by simp only [gt_iff_lt, eq_iff_iff]; omega
  refine (reads_ue (by omega)).bind (Reads.bind (a := if q.pics.length > 1 then (q.indep.toNat, q.same.toNat) else (0, 0)) ?_
    (Reads.bind (a := ()) ?_ ((reads_ue (by omega)).bind ?_)))
  · simp only [hg]
    split
    · exact (reads_flag _).bind ((reads_flag _).bind_nil (reads_pure _))
    · exact reads_pure _
  · simp only [hg]
    split
    · rw [Nat.sub_add_cancel h1]
      exact reads_subpics hs.ctu hs.width hs.height q _ q.pics 0
    · exact reads_pure _
  · cases hi : q.ids with
    | none => exact (reads_flag false).bind_nil (reads_pure _)
    | some o =>
      cases o with
      | none => exact (reads_flag true).bind ((reads_flag false).bind_nil (reads_pure _))
      | some ids =>
        refine (reads_flag true).bind ((reads_flag true).bind ?_)
        rw [Nat.mod_eq_of_lt (show q.len + 1 < 4294967296 by omega)]
        exact reads_skip ids _ (fun x _ => reads_get (u_length _ _) (by omega) (by omega)) (by have := h4 ids hi; omega)

/-- The profile, tier and level of a configuration. -/
def vvcPtlConfig (p : VvcPtl) : Ptl :=
  { bytes := 1, profile := p.profile, tier := p.tier.toNat, level := p.level, frameOnly := p.frameOnly.toNat, multiLayer := p.multi.toNat
    upper := 0, lower := []
    subs := p.levels.map (fun l => (l.isSome.toNat, l.getD 0)) ++ List.replicate (8 - p.levels.length) (0, 0)
    subProfileCount := 0, subProfiles := [] }

/-- The configuration for an H.266 set. -/
def vvcConfig (s : VvcSps) (lengthSize : Nat) : Vvc :=
  { Vvc.create with
    lengthSize1 := lengthSize - 1, sublayers := s.sublayers + 1, chroma := s.chroma, ptlPresent := s.ptl.isSome.toNat
    ptl := (s.ptl.map vvcPtlConfig).getD Vvc.noPtl
    width := s.width, height := s.height, depth := s.depth }

theorem reads_levels (ls : List (Option Nat)) (h : ∀ l ∈ ls, ∀ v, l = some v → v < 256) :
    Reads (vvcLevels (ls.map fun l => l.isSome.toNat)) (ls.flatMap fun l => (l.map (u 8)).getD [])
      (ls.map fun l => (l.isSome.toNat, l.getD 0)) := by
  induction ls with
  | nil => exact reads_pure _
  | cons l ls ih =>
    refine Reads.bind (a := l.getD 0) ?_ ((ih fun l' hl => h l' (by simp [hl])).bind_nil (reads_pure _))
    cases l with
    | none => exact reads_pure _
    | some v => exact reads_byte (h _ (by simp) v rfl)

theorem vvc_ptl_byte : ∀ p < 128, ∀ t : Bool, value (u 7 p ++ [t]) >>> 1 = p ∧ value (u 7 p ++ [t]) &&& 1 = t.toNat := by decide +kernel

theorem reads_skip_flags (n : Nat) : Reads (skip n flag) (List.replicate n false) () := by
  have e : List.replicate n false = (List.replicate n 0).flatMap fun _ => [false] := by
    induction n with
    | zero => rfl
    | succ n ih => simp only [List.replicate_succ, List.flatMap_cons, ih]; rfl
  rw [e]
  exact reads_skip _ _ (fun _ _ => reads_flag false) (by simp)

theorem reads_noConstraints (p : Ptl) : Reads (vvcConstraints p) [false] { p with upper := 0, bytes := 1 } :=
  (reads_flag false).bind_nil (reads_pure _)

theorem reads_subFlags (p : VvcPtl) :
    Reads (times p.levels.length flag) (p.levels.reverse.map Option.isSome) (p.levels.reverse.map fun l => l.isSome.toNat) := by
  have := reads_times p.levels.reverse (fun l => [l.isSome]) (fun l => l.isSome.toNat) (fun l _ => reads_flag l.isSome) (n := p.levels.length) (by simp)
  rwa [show p.levels.reverse.flatMap (fun l => [l.isSome]) = p.levels.reverse.map Option.isSome from List.map_eq_flatMap.symm] at this

theorem reads_subAlign (p : VvcPtl) (h3 : p.levels.length < 7) :
    Reads (skip (if p.levels.length + 1 > 1 then 9 - (p.levels.length + 1) else 0) flag)
      (if p.levels = [] then [] else List.replicate (8 - p.levels.length) false) () := by
  by_cases h0 : p.levels = []
  · rw [h0]; exact (reads_skip_flags 0)
  · have := List.length_pos_iff.2 h0
    rw [if_pos (by omega), if_neg h0, show 9 - (p.levels.length + 1) = 8 - p.levels.length by omega]
    exact reads_skip_flags _

theorem readsAt_ptl (p : VvcPtl) (k : Nat) (hk : k % 8 = 0) (h1 : p.profile < 128) (h2 : p.level < 256) (h3 : p.levels.length < 7)
    (h4 : ∀ l ∈ p.levels, ∀ v, l = some v → v < 256) : ReadsAt (vvcPtl (p.levels.length + 1)) k p.bits (vvcPtlConfig p) := by
  have e : p.bits = (u 7 p.profile ++ [p.tier]) ++ (u 8 p.level ++ ([p.frameOnly] ++ ([p.multi] ++ ([false] ++ (List.replicate 5 false ++
      (p.levels.reverse.map Option.isSome ++ ((if p.levels = [] then [] else List.replicate (8 - p.levels.length) false) ++
      (p.levels.reverse.flatMap (fun l => (l.map (u 8)).getD []) ++ u 8 0)))))))) := by
    unfold VvcPtl.bits VvcPtl.head
    simp only [List.append_assoc]
  rw [e]
  refine (reads_byteL (by simp) _).bind ((reads_byte h2 _).bind ((reads_flag _ _).bind ((reads_flag _ _).bind
    ((reads_noConstraints _ _).bind ((readsAt_align 5 9 _ (by simp) ?_ (by decide) (by decide)).bind ?_)))))
  · simp only [List.length_append, u_length, List.length_singleton]
    omega
  obtain ⟨g1, g2⟩ := vvc_ptl_byte p.profile h1 p.tier
  rw [g1, g2, Nat.add_sub_cancel]
  suffices h : Reads _ _ _ from h _
  refine (reads_subFlags p).bind ((reads_subAlign p h3).bind ?_)
  refine (reads_levels _ fun l hl => h4 l (by simpa using hl)).bind ((reads_byte (by decide)).bind_nil ?_)
  refine reads_cast (reads_pure _) rfl ?_
  unfold vvcPtlConfig Vvc.noPtl
  simp [-List.reduceReplicate]

theorem vvc_header (t : Nat) : value (u 5 15 ++ u 3 t) >>> 3 = 15 := by
  rw [value_append, value_u, value_u, u_length, Nat.shiftRight_eq_div_pow]
  omega

theorem vvc_sps_byte : ∀ n < 7, ∀ c < 4, ∀ t < 3, ∀ b : Bool, ∀ x, x = value (u 3 n ++ u 2 c ++ u 2 t ++ [b]) →
    (x >>> 5) + 1 = n + 1 ∧ (x &&& 0x1f) >>> 3 = c ∧ x &&& 1 = b.toNat ∧ 1 <<< (((x &&& 0x06) >>> 1) + 5) = 2 ^ (t + 5) := by
  have : ∀ n < 7, ∀ c < 4, ∀ t < 3, ∀ b : Bool, (value (u 3 n ++ u 2 c ++ u 2 t ++ [b]) >>> 5) + 1 = n + 1 ∧
      (value (u 3 n ++ u 2 c ++ u 2 t ++ [b]) &&& 0x1f) >>> 3 = c ∧ value (u 3 n ++ u 2 c ++ u 2 t ++ [b]) &&& 1 = b.toNat ∧
      1 <<< (((value (u 3 n ++ u 2 c ++ u 2 t ++ [b]) &&& 0x06) >>> 1) + 5) = 2 ^ (t + 5) := by decide +kernel
  rintro n hn c hc t ht b x rfl
  exact this n hn c hc t ht b

theorem reads_tail {s : VvcSps} (hs : s.Ok) (c : Vvc) :
    Reads (vvcTail c s.ctb) ([s.gdr] ++ ((match s.resampling with | none => [false] | some c => [true] ++ [c]) ++
      (golomb s.width ++ (golomb s.height ++ (windowBits s.window ++
      ((match s.subpics with | none => [false] | some q => [true] ++ s.subpicInfo q) ++ golomb s.depth))))))
      ({ c with width := s.width, height := s.height, depth := s.depth }, s.width, s.height) := by
  have hw := hs.width
  have hh := hs.height
  have hd := hs.depth
  refine (reads_flag _).bind ?_
  have hlast : Reads (do
      let width ← ue
      let height ← ue
      let x ← flag
      (if x ≠ 0 then skip 4 ue else pure () : B Unit)
      let x ← flag
      (if x ≠ 0 then vvcSubpicInfo width height s.ctb else pure () : B Unit)
      let depth ← ue
      pure ({ c with width := width, height := height, depth := depth }, width, height))
      (golomb s.width ++ (golomb s.height ++ (windowBits s.window ++
      ((match s.subpics with | none => [false] | some q => [true] ++ s.subpicInfo q) ++ golomb s.depth))))
      ({ c with width := s.width, height := s.height, depth := s.depth }, s.width, s.height) := by
    refine (reads_ue (by omega)).bind ((reads_ue (by omega)).bind (reads_window hs.window ?_))
    have hend := (reads_ue (v := s.depth) (by omega)).bind_nil (f := fun depth => (pure ({ c with width := s.width, height := s.height, depth := depth }, s.width, s.height) : B (Vvc × Nat × Nat))) (reads_pure _)
    cases hq : s.subpics with
    | none => exact (reads_flag false).bind ((reads_pure ()).bind hend)
    | some q =>
      rw [List.append_assoc]
      exact (reads_flag true).bind ((reads_subpicInfo hs q hq).bind hend)
  cases s.resampling with
  | none => exact (reads_flag false).bind ((reads_pure ()).bind hlast)
  | some x =>
    rw [List.append_assoc]
    exact (reads_flag true).bind ((reads_skip1 (reads_flag x)).bind hlast)

theorem readsAt_vvc (s : VvcSps) (hs : s.Ok) (lengthSize : Nat) :
    ReadsAt (vvcFields lengthSize) 0 s.bits (vvcConfig s lengthSize, s.width, s.height) := by
  have e : s.bits = ([false] ++ [false] ++ u 6 s.layer) ++ ((u 5 15 ++ u 3 s.temporal) ++ ((u 4 s.id ++ u 4 s.vps) ++
      ((u 3 s.sublayers ++ u 2 s.chroma ++ u 2 s.ctu ++ [s.ptl.isSome]) ++ ((s.ptl.map VvcPtl.bits).getD [] ++
      ([s.gdr] ++ ((match s.resampling with | none => [false] | some c => [true] ++ [c]) ++
      (golomb s.width ++ (golomb s.height ++ (windowBits s.window ++
      ((match s.subpics with | none => [false] | some q => [true] ++ s.subpicInfo q) ++ golomb s.depth)))))))))) := by
    unfold VvcSps.bits
    simp only [List.append_assoc]
    rfl
  rw [e]
  refine (reads_byteL (by simp) _).bind ((reads_byteL (by simp) _).bind ?_)
  rw [vvc_header]
  simp only [ne_eq, not_true, if_false]
  refine (reads_byteL (by simp) _).bind ((reads_byteL (by simp) _).bind ?_)
  obtain ⟨g1, g2, g3, g4⟩ := vvc_sps_byte _ hs.sublayers _ hs.chroma _ hs.ctu s.ptl.isSome _ rfl
  rw [g1, g2, g3, g4]
  simp only [List.length_append, u_length, List.length_singleton]
  refine ReadsAt.bind (a := (s.ptl.map vvcPtlConfig).getD Vvc.noPtl) ?_ (reads_tail hs _ _)
  cases hp : s.ptl with
  | none => exact reads_pure _ _
  | some p =>
    obtain ⟨p1, p2, p3, p4⟩ := hs.ptl p hp
    have := hs.sublayers
    rw [← p3]
    exact readsAt_ptl p _ (by decide) p1 p2 (by omega) p4

/-- The arrays for the sets given. -/
def vvcSets (sps : Bytes) (pps : Option Bytes) : List Arr :=
  [⟨1, 15, [sps]⟩, ⟨1, 16, pps.toList⟩, ⟨1, 14, []⟩, ⟨1, 12, []⟩, ⟨1, 13, []⟩, ⟨1, 17, []⟩, ⟨1, 23, []⟩]

/-- What comes first in a picture parameter set of H.266. -/
def VvcPpsUnit (pps : Bytes) : Prop :=
  ∃ (Q : Bytes) (layer temporal : Nat) (rest : List Bool), pps = escape 0 Q ∧ pps.length < 2 ^ 25 ∧
    bitsOf Q = [false] ++ [false] ++ u 6 layer ++ u 5 16 ++ u 3 temporal ++ rest

theorem vvc_pps (pps : Bytes) (h : VvcPpsUnit pps) (c : Vvc) : vvcPps pps c = Vvc.add c 16 pps := by
  obtain ⟨Q, l, t, rest, he, hlen, hQ⟩ := h
  rw [show [false] ++ [false] ++ u 6 l ++ u 5 16 ++ u 3 t ++ rest = ([false] ++ [false] ++ u 6 l) ++ ((u 5 16 ++ u 3 t) ++ rest) by
    simp only [List.append_assoc]] at hQ
  obtain ⟨b, e1, r⟩ := rep_init true hlen (ne_nil_of_bits hQ (by simp)) (by simpa using he)
  rw [hQ] at r
  obtain ⟨b1, e2, r1⟩ := reads_byteL (by simp) 0 b _ r
  obtain ⟨b2, e3, _⟩ := reads_byteL (by simp) _ b1 _ r1
  have h16 : value (u 5 16 ++ u 3 t) >>> 3 = 16 := by
    rw [value_append, value_u, value_u, u_length, Nat.shiftRight_eq_div_pow]
    omega
  unfold vvcPps
  rw [e1]
  simp only [Res.bind, e2, e3, h16, ne_eq, not_true, if_false]

/-- **C65, H.266**, for sets without general constraints and sub-profiles. -/
theorem c65_vvc_partial (s : VvcSps) (hs : s.Ok) (lengthSize : Nat) (hls : lengthSize = 1 ∨ lengthSize = 2 ∨ lengthSize = 4) (R : Bytes)
    (rest : List Bool) (hR : bitsOf R = s.bits ++ rest) (hlen : (escape 0 R).length < 2 ^ 25) (pps : Option Bytes)
    (hp : ∀ p, pps = some p → VvcPpsUnit p) :
    newVvc lengthSize (escape 0 R) pps = .ok
      ({ vvcConfig s lengthSize with
          count := 1 + pps.toList.length
          arrays := vvcSets (escape 0 R) pps }, s.width, s.height) := by
  have hne : s.bits ≠ [] := by simp [VvcSps.bits]
  obtain ⟨b, b', e1, e2⟩ := run_reads (readsAt_vvc s hs lengthSize) true (by simp) hR (ne_nil_of_bits hR hne) hlen
  unfold newVvc
  rw [if_neg (by omega), e1]
  simp only [Res.bind, e2]
  cases pps with
  | none => rfl
  | some p =>
    have := vvc_pps p (hp p rfl)
    simp only [this]
    rfl

/-! ### Sets with general constraints or sub-profiles -/

/-- The reader is lost on bits starting so, `k` bits after the start. -/
def CrashesAt {α : Type} (p : B α) (k : Nat) (l : List Bool) : Prop := ∀ b rest, Rep b k (l ++ rest) → p b = .ub

theorem CrashesAt.after {α β : Type} {p : B α} {f : α → B β} {k : Nat} {l m : List Bool} {a : α} (h : ReadsAt p k l a)
    (hf : CrashesAt (f a) (k + l.length) m) : CrashesAt (p >>= f) k (l ++ m) := by
  intro b rest r
  rw [List.append_assoc] at r
  obtain ⟨b1, e1, r1⟩ := h b _ r
  show Res.bind (p b) _ = _
  rw [e1]
  exact hf b1 rest r1

theorem CrashesAt.bind {α β : Type} {p : B α} {f : α → B β} {k : Nat} {l : List Bool} (h : CrashesAt p k l) : CrashesAt (p >>= f) k l := by
  intro b rest r
  show Res.bind (p b) _ = _
  rw [h b rest r]
  rfl

theorem crashesAt_ite {α : Type} {c : Prop} [Decidable c] {p q : B α} {k : Nat} {l : List Bool} (hp : CrashesAt p k l) (hq : CrashesAt q k l) :
    CrashesAt (if c then p else q) k l := by
  split
  · exact hp
  · exact hq

theorem crashesAt_crash {α : Type} (k : Nat) : CrashesAt (crash : B α) k [] := fun _ _ _ => rfl

/-- The set up to profile, tier and level. -/
def VvcSps.start (s : VvcSps) : List Bool :=
  [false] ++ [false] ++ u 6 s.layer ++ u 5 15 ++ u 3 s.temporal ++
  u 4 s.id ++ u 4 s.vps ++ u 3 s.sublayers ++ u 2 s.chroma ++ u 2 s.ctu ++ [true]

theorem crash_vvc (s : VvcSps) (hn : s.sublayers < 7) (hc : s.chroma < 4) (ht : s.ctu < 3) (lengthSize : Nat)
    (hls : lengthSize = 1 ∨ lengthSize = 2 ∨ lengthSize = 4) (R : Bytes) (l rest : List Bool)
    (hR : bitsOf R = s.start ++ l ++ rest) (hlen : (escape 0 R).length < 2 ^ 25) (pps : Option Bytes)
    (hl : CrashesAt (vvcPtl (s.sublayers + 1)) 32 l) : newVvc lengthSize (escape 0 R) pps = .ub := by
  have hf : CrashesAt (vvcFields lengthSize) 0 (([false] ++ [false] ++ u 6 s.layer) ++ ((u 5 15 ++ u 3 s.temporal) ++ ((u 4 s.id ++ u 4 s.vps) ++
      ((u 3 s.sublayers ++ u 2 s.chroma ++ u 2 s.ctu ++ [true]) ++ l)))) := by
    refine CrashesAt.after (reads_byteL (by simp) _) (CrashesAt.after (reads_byteL (by simp) _) ?_)
    rw [vvc_header]
    simp only [ne_eq, not_true, if_false]
    refine CrashesAt.after (reads_byteL (by simp) _) (CrashesAt.after (reads_byteL (by simp) _) ?_)
    obtain ⟨g1, g2, g3, g4⟩ := vvc_sps_byte _ hn _ hc _ ht true _ rfl
    rw [g1, g2, g3, g4]
    simp only [List.length_append, u_length, List.length_singleton]
    exact CrashesAt.bind hl
  have e : s.start ++ l ++ rest = (([false] ++ [false] ++ u 6 s.layer) ++ ((u 5 15 ++ u 3 s.temporal) ++ ((u 4 s.id ++ u 4 s.vps) ++
      ((u 3 s.sublayers ++ u 2 s.chroma ++ u 2 s.ctu ++ [true]) ++ l)))) ++ rest := by
    unfold VvcSps.start
    simp only [List.append_assoc]
  rw [e] at hR
  obtain ⟨b, e1, r⟩ := rep_init true hlen (ne_nil_of_bits hR (by simp)) (by simp)
  rw [hR] at r
  unfold newVvc
  rw [if_neg (by omega), e1]
  show (Res.bind (vvcFields lengthSize b) _) = _
  rw [hf b rest r]
  rfl

/-- A set with general constraints cannot be taken: the process ends or memory past an array is copied, whatever the
constraints are (they take 80 bits or more). -/
theorem c65_vvc_constraints (s : VvcSps) (p : VvcPtl) (hn : s.sublayers < 7) (hc : s.chroma < 4) (ht : s.ctu < 3)
    (hl : p.level < 256) (lengthSize : Nat)
    (hls : lengthSize = 1 ∨ lengthSize = 2 ∨ lengthSize = 4) (R : Bytes) (constraints rest : List Bool) (h80 : constraints.length = 80)
    (hR : bitsOf R = s.start ++ (u 7 p.profile ++ [p.tier] ++ u 8 p.level ++ [p.frameOnly] ++ [p.multi] ++ [true] ++ constraints) ++ rest)
    (hlen : (escape 0 R).length < 2 ^ 25) (pps : Option Bytes) : newVvc lengthSize (escape 0 R) pps = .ub := by
  have hcc : ∀ q k, CrashesAt (vvcConstraints q) k ([true] ++ constraints) := by
    intro q k
    rw [show constraints = constraints.take 5 ++ ((constraints.drop 5).take 72 ++ ((constraints.drop 5).drop 72 ++ [])) by
      rw [List.append_nil, List.take_append_drop, List.take_append_drop]]
    refine CrashesAt.after (reads_flag true _) (CrashesAt.after (reads_get (by simp; omega) (by decide) (by decide) _) ?_)
    obtain ⟨v, hv⟩ := reads_bytes 9 (l := (constraints.drop 5).take 72) (by simp; omega)
    refine CrashesAt.after (hv _) (CrashesAt.after (reads_get (by simp; omega) (by decide) (by decide) _) ?_)
    exact crashesAt_ite (crashesAt_crash _) (crashesAt_crash _)
  refine crash_vvc s hn hc ht lengthSize hls R _ rest hR hlen pps ?_
  rw [show u 7 p.profile ++ [p.tier] ++ u 8 p.level ++ [p.frameOnly] ++ [p.multi] ++ [true] ++ constraints =
    (u 7 p.profile ++ [p.tier]) ++ (u 8 p.level ++ ([p.frameOnly] ++ ([p.multi] ++ ([true] ++ constraints)))) by
    simp only [List.append_assoc]]
  exact CrashesAt.after (reads_byteL (by simp) _) (CrashesAt.after (reads_byte hl _) (CrashesAt.after (reads_flag _ _)
    (CrashesAt.after (reads_flag _ _) (hcc _ _).bind)))

/-- Nor can a set with sub-profiles: they are written through a null pointer. -/
theorem c65_vvc_subprofiles (s : VvcSps) (p : VvcPtl) (hn : s.sublayers < 7) (hc : s.chroma < 4) (ht : s.ctu < 3)
    (hl : p.level < 256) (hls' : p.levels.length = s.sublayers) (h4 : ∀ l ∈ p.levels, ∀ v, l = some v → v < 256) (count : Nat)
    (h0 : 0 < count) (h256 : count < 256) (lengthSize : Nat)
    (hls : lengthSize = 1 ∨ lengthSize = 2 ∨ lengthSize = 4) (R : Bytes) (rest : List Bool)
    (hR : bitsOf R = s.start ++ (p.head ++ u 8 count) ++ rest) (hlen : (escape 0 R).length < 2 ^ 25) (pps : Option Bytes) :
    newVvc lengthSize (escape 0 R) pps = .ub := by
  refine crash_vvc s hn hc ht lengthSize hls R _ rest hR hlen pps ?_
  have e : p.head ++ u 8 count = (u 7 p.profile ++ [p.tier]) ++ (u 8 p.level ++ ([p.frameOnly] ++ ([p.multi] ++ ([false] ++ (List.replicate 5 false ++
      (p.levels.reverse.map Option.isSome ++ ((if p.levels = [] then [] else List.replicate (8 - p.levels.length) false) ++
      (p.levels.reverse.flatMap (fun l => (l.map (u 8)).getD []) ++ (u 8 count ++ []))))))))) := by
    unfold VvcPtl.head
    simp only [List.append_assoc, List.append_nil]
  rw [e, ← hls']
  refine CrashesAt.after (reads_byteL (by simp) _) (CrashesAt.after (reads_byte hl _) (CrashesAt.after (reads_flag _ _)
    (CrashesAt.after (reads_flag _ _) (CrashesAt.after (reads_noConstraints _ _)
    (CrashesAt.after (readsAt_align 5 9 _ (by simp) (by simp) (by decide) (by decide)) ?_)))))
  rw [Nat.add_sub_cancel]
  refine CrashesAt.after (reads_subFlags p _) (CrashesAt.after (reads_subAlign p (by omega) _)
    (CrashesAt.after (reads_levels _ (fun l hl => h4 l (by simpa using hl)) _) (CrashesAt.after (reads_byte h256 _) ?_)))
  rw [if_pos (by omega)]
  exact crashesAt_crash _

/-- The tier does not come into the configuration of H.265: sets that differ in it, the profile space, the constraint flags and
the sub-layers have the same configuration but for the sets themselves. -/
theorem c65_hevc_tier_lost (s t : HevcSps) (hs : s.Ok) (ht : t.Ok)
    (hst : t = { s with tier := t.tier, space := t.space, constraints := t.constraints, subs := t.subs })
    (lengthSize : Nat) (hls : lengthSize = 1 ∨ lengthSize = 2 ∨ lengthSize = 4) (R Q : Bytes)
    (rest rest' : List Bool) (hR : bitsOf R = s.bits ++ rest) (hlen : (escape 0 R).length < 2 ^ 25)
    (hQ : bitsOf Q = t.bits ++ rest') (hlen' : (escape 0 Q).length < 2 ^ 25) :
    ∃ c d wh, newHevc lengthSize (escape 0 R) none none = .ok (c, wh) ∧ newHevc lengthSize (escape 0 Q) none none = .ok (d, wh) ∧
      { c with arrays := [] } = { d with arrays := [] } := by
  have e : hevcConfig t lengthSize = hevcConfig s lengthSize ∧ t.width = s.width ∧ t.height = s.height := by rw [hst]; exact ⟨rfl, rfl, rfl⟩
  have h2 := c65_hevc_partial t ht lengthSize hls Q rest' hQ hlen' none none
  rw [e.1, e.2.1, e.2.2] at h2
  exact ⟨_, _, _, c65_hevc_partial s hs lengthSize hls R rest hR hlen none none, h2, rfl⟩

/-! ## The claim is not empty -/

/-- 1920x1080, main profile, two temporal sub-layers, the lower with a level. -/
def hevcExample : HevcSps :=
  { layer := 0, temporal := 1, vps := 0, nested := true, space := 0, tier := false, profile := 1, compatibility := 0x60000000
    constraints := List.replicate 48 false, level := 120, subs := [⟨none, some 93⟩], id := 0, chroma := 1, separate := false
    width := 1920, height := 1088, window := some (0, 0, 0, 4), luma := 0, chromaDepth := 0 }

def pack : Nat → List Bool → Bytes
  | 0, _ => []
  | n + 1, l => UInt8.ofNat (value (l.take 8 ++ List.replicate (8 - l.length) false)) :: pack n (l.drop 8)

def hevcBytes : Bytes := pack ((hevcExample.bits.length + 7) / 8) hevcExample.bits

example : hevcExample.Ok :=
  ⟨by decide, by decide, by decide, by decide, by decide, by
    intro x hx
    simp only [hevcExample, List.mem_singleton] at hx
    subst hx
    exact ⟨nofun, fun l h => by cases h; decide⟩, by decide, by decide, by decide, by decide, by simp [hevcExample, windowOk], by decide, by decide⟩

example : bitsOf hevcBytes = hevcExample.bits ++ (bitsOf hevcBytes).drop hevcExample.bits.length ∧ escape 0 hevcBytes ≠ hevcBytes := by decide +kernel

example : newHevc 4 (escape 0 hevcBytes) none none =
    .ok ({ hevcConfig hevcExample 4 with count := 1, arrays := hevcSets (escape 0 hevcBytes) none none }, 1920, 1088) := by decide +kernel

/-- 4:2:0 at 10 bits, in a high profile. -/
def avcExample : AvcSps :=
  { refIdc := 3, profile := 110, compatibility := 0, level := 40, id := 0, chroma := 1, separate := false, luma := 2, chromaDepth := 2 }

def avcBytes : Bytes := pack ((avcExample.bits.length + 7) / 8) avcExample.bits

example : avcExample.Ok ∧ avcExample.high ∧ avcExample.chroma ≠ 3 := ⟨⟨by decide, by decide, by decide, by decide, by decide, by decide, by decide⟩, by decide, by decide⟩

example : bitsOf avcBytes = avcExample.bits ++ (bitsOf avcBytes).drop avcExample.bits.length ∧
    newAvc 4 avcBytes (some [0x68, 0xce]) none = .ok { avcConfig avcExample 4 with sps := [avcBytes], pps := [[0x68, 0xce]], spsext := [] } := by
  decide +kernel

def avc444 : AvcSps := { avcExample with profile := 144, chroma := 3, separate := true }

example : avc444.Ok ∧ avc444.high ∧ avc444.chroma = 3 := ⟨⟨by decide, by decide, by decide, by decide, by decide, by decide, by decide⟩, by decide, rfl⟩

/-- Two sub-pictures side by side, three temporal sub-layers. -/
def vvcExample : VvcSps :=
  { layer := 0, temporal := 1, id := 0, vps := 0, sublayers := 2, chroma := 1, ctu := 2
    ptl := some ⟨1, false, 83, true, false, [none, some 67]⟩
    gdr := true, resampling := some false, width := 1920, height := 1080, window := none
    subpics := some ⟨true, false, [⟨0, 0, 7, 8, false, false⟩, ⟨8, 0, 6, 8, false, false⟩], 3, some (some [4, 9])⟩, depth := 2 }

def vvcBytes : Bytes := pack ((vvcExample.bits.length + 7) / 8) vvcExample.bits

example : vvcExample.Ok :=
  ⟨by decide, by decide, by decide, by
    intro p hp
    cases hp
    refine ⟨by decide, by decide, by decide, ?_⟩
    intro l hl v hv
    simp only [List.mem_cons, List.not_mem_nil, or_false] at hl
    rcases hl with rfl | rfl
    · cases hv
    · cases hv; decide, by decide, by decide, trivial, by
    intro q hq
    cases hq
    exact ⟨by decide, by decide, by decide, fun ids h => by cases h; rfl⟩, by decide⟩

example : bitsOf vvcBytes = vvcExample.bits ++ (bitsOf vvcBytes).drop vvcExample.bits.length ∧
    newVvc 4 (escape 0 vvcBytes) (some [0, 0x81, 7]) =
      .ok ({ vvcConfig vvcExample 4 with count := 2, arrays := vvcSets (escape 0 vvcBytes) (some [0, 0x81, 7]) }, 1920, 1080) := by decide +kernel

example : VvcPpsUnit [0, 0x81, 7] := ⟨[0, 0x81, 7], 0, 1, u 8 7, by decide +kernel, by decide, by decide +kernel⟩

end Verif.ParamSet
