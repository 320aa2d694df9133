import Verif.Model.Sidx
import Verif.Lemmas.Auto

/-!
# C37: segment indexes

The property fails for every index with a reference: none that is written can be parsed.
-/

namespace Verif.Sidx

/-! ## Specification -/

/-- Layout of a reference (ISO/IEC 14496-12, 8.16.3). -/
def refBytes (r : Ref) : Bytes :=
  be 4 (r.type * 2 ^ 31 + r.size) ++ (be 4 r.duration ++ be 4 (r.starts * 2 ^ 31 + r.sap * 2 ^ 28 + r.delta))

/-- Everything after the version and flags. -/
def body (b : Box) : Bytes :=
  be 4 b.id ++ (be 4 b.timescale ++ (be 4 b.earliest ++ (be 4 b.first ++ (be 2 b.reserved ++ (be 2 b.refs.length ++
    b.refs.flatMap refBytes)))))

structure RefFits (r : Ref) : Prop where
  type : r.type < 2
  size : r.size < 2 ^ 31
  duration : r.duration < 2 ^ 32
  starts : r.starts < 2
  sap : r.sap < 8
  delta : r.delta < 2 ^ 28

/-- Fields in range, and the count is the number of references. -/
structure Fits (b : Box) : Prop where
  version : b.version < 256
  flags : b.flags < 2 ^ 24
  fields : b.id < 2 ^ 32 ∧ b.timescale < 2 ^ 32 ∧ b.earliest < 2 ^ 32 ∧ b.first < 2 ^ 32 ∧ b.reserved < 2 ^ 16
  count : b.count = b.refs.length ∧ b.refs.length < 2 ^ 16
  refs : ∀ r ∈ b.refs, RefFits r

/-! ## Adding -/

/-- References are kept in the order in which they are added, and counted, up to 65535. -/
theorem c37_add (b : Box) (rs : List Ref) (hb : b.count = b.refs.length) (hn : b.refs.length + rs.length < 2 ^ 16) :
    (rs.foldl addReference b).refs = b.refs ++ rs ∧ (rs.foldl addReference b).count = b.refs.length + rs.length := by
  induction rs generalizing b with
  | nil => simp [hb]
  | cons r rs ih =>
    simp only [List.length_cons] at hn
    have h1 : (addReference b r).count = b.refs.length + 1 := by
      simp only [addReference, hb]; omega
    have h2 : (addReference b r).refs = b.refs ++ [r] := rfl
    have := ih (addReference b r) (by rw [h1, h2]; simp) (by rw [h2]; simp; omega)
    simp only [List.foldl_cons]
    rw [this.1, this.2, h2]
    simp
    omega

/-! ## Writing -/

theorem emits_ref {r : Ref} (h : RefFits r) : Emits (putRef r) (refBytes r) := by
  obtain ⟨h1, h2, h3, h4, h5, h6⟩ := h
  have e1 : w32(r.type <<< 31) ||| r.size = r.type * 2 ^ 31 + r.size := by
    have : w32(r.type <<< 31) = r.type <<< 31 := by rw [Nat.shiftLeft_eq]; omega
    rw [this, or_shift_eq h2]
  have e2 : (w32(r.starts <<< 31) ||| w32(r.sap <<< 28)) ||| r.delta =
      r.starts * 2 ^ 31 + r.sap * 2 ^ 28 + r.delta := by
    have a : w32(r.starts <<< 31) = r.starts <<< 31 := by rw [Nat.shiftLeft_eq]; omega
    have b : w32(r.sap <<< 28) = r.sap <<< 28 := by rw [Nat.shiftLeft_eq]; omega
    have c : r.sap <<< 28 = r.sap * 2 ^ 28 := Nat.shiftLeft_eq _ _
    rw [a, b, c, or_shift_eq (by omega)]
    have d : r.starts * 2 ^ 31 + r.sap * 2 ^ 28 = (r.starts * 8 + r.sap) <<< 28 := by
      rw [Nat.shiftLeft_eq]; omega
    rw [d, or_shift_eq h6,
      Nat.shiftLeft_eq]
  unfold putRef refBytes
  rw [e1, e2]
  exact (emits_put32 _).seq ((emits_put32 _).seq (emits_put32 _))

theorem emits_refs (l : List Ref) (h : ∀ r ∈ l, RefFits r) : Emits (putRefs l.length l) (l.flatMap refBytes) := by
  induction l with
  | nil => exact emits_skip
  | cons r l ih => exact (emits_ref (h r (by simp))).seq (ih fun x hx => h x (by simp [hx]))

/-- What is written: the layout of the standard, but the declared size is four bytes for each
reference too large. -/
theorem c37_written (b : Box) (hb : Fits b) :
    runW (size b) (serialize b) = .ok (be 4 (32 + 16 * b.refs.length) ++ be 4 (fcc 's' 'i' 'd' 'x') ++
      (be 1 b.version ++ be 3 b.flags ++ body b)) ∧
    size b = (12 + (body b).length) + 4 * b.refs.length := by
  obtain ⟨hc1, hc2⟩ := hb.count
  have hsz : size b = 32 + 16 * b.refs.length := by unfold size; rw [hc1]; omega
  have hr : (b.refs.flatMap refBytes).length = 12 * b.refs.length :=
    flatMap_length_const _ fun r _ => by simp [refBytes]
  constructor
  · have ht : typeSidx = fcc 's' 'i' 'd' 'x' := by decide
    have h1 : Emits (serialize b) _ := (emits_serFull (size b) typeSidx b.version b.flags).seq ((emits_put32 b.id).seq
      ((emits_put32 b.timescale).seq ((emits_put32 b.earliest).seq ((emits_put32 b.first).seq
        ((emits_put16 b.reserved).seq ((emits_put16 b.count).seq (by rw [hc1]; exact emits_refs _ hb.refs)))))))
    rw [h1.run (by simp only [List.length_append, be_length, hr]; omega), if_pos (by simp only [List.length_append, be_length, hr, hsz]; omega)]
    rw [hsz, hc1, ht]
    simp [body]
  · rw [hsz]
    simp only [body, List.length_append, be_length, hr]
    omega

/-! ## Parsing -/

theorem P.bind_ok {α β : Type} {p : P α} {f : α → P β} {s : PS} {b : β} {s' : PS}
    (h : (p >>= f) s = .ok (b, s')) : ∃ a t, p s = .ok (a, t) ∧ f a t = .ok (b, s') := by
  rw [P.bind_apply] at h
  cases hp : p s with
  | ok r => rw [hp] at h; exact ⟨r.1, r.2, rfl, h⟩
  | err e => rw [hp] at h; cases h
  | ub => rw [hp] at h; cases h

theorem get32_read {s s' : PS} {v : Nat} (h : get32 s = .ok (v, s')) : s'.read = s.read + 4 := by
  unfold get32 at h
  cases hr : rd32 s.rest with
  | ok r => rw [hr] at h; cases h; rfl
  | err e => rw [hr] at h; cases h
  | ub => rw [hr] at h; cases h

theorem getRef_read {s s' : PS} {r : Ref} (h : getRef s = .ok (r, s')) : s'.read = s.read + 12 := by
  unfold getRef at h
  obtain ⟨x, t1, h1, h⟩ := P.bind_ok h
  obtain ⟨y, t2, h2, h⟩ := P.bind_ok h
  obtain ⟨z, t3, h3, h⟩ := P.bind_ok h
  cases h
  rw [get32_read h3, get32_read h2, get32_read h1]

/-- The rounds of the loop when it ends: the count and `i` grow together until the count returns
to 0. -/
theorem loop_rounds (fuel : Nat) : ∀ (i : Nat) (b : Box) (s : PS) (b' : Box) (s' : PS),
    loop fuel i b s = .ok (b', s') → b.count < 65536 →
    ∃ k, s'.read = s.read + 12 * k ∧ ¬ (i + k < (b.count + k) % 65536) ∧
      ∀ j < k, i + j < (b.count + j) % 65536 := by
  induction fuel with
  | zero => intro i b s b' s' h; cases h
  | succ fuel ih =>
    intro i b s b' s' h hc
    unfold loop at h
    by_cases hi : i < b.count
    · rw [if_pos hi] at h
      obtain ⟨r, t, h1, h2⟩ := P.bind_ok h
      have hcnt : (addReference b r).count = (b.count + 1) % 65536 := rfl
      obtain ⟨k, h3, h4, h5⟩ := ih _ _ _ _ _ h2 (by rw [hcnt]; omega)
      rw [hcnt] at h4 h5
      refine ⟨k + 1, ?_, ?_, ?_⟩
      · rw [h3, getRef_read h1]; omega
      · omega
      · intro j hj
        rcases j with _ | j
        · omega
        · have := h5 j (by omega); omega
    · rw [if_neg hi] at h
      cases h
      exact ⟨0, by omega, by omega, by intro j hj; omega⟩

/-- When the parser succeeds on a box that says it has `n` references and is `size` bytes long, then
either `n` is 0, or it has read 65536 - n references, and they are all there is in the box. -/
theorem parse_rounds {sz v fl i t e f rs n : Nat} {rest : Bytes} {b : Box} {h : Hdr} {r : Bytes}
    (hv : v < 256) (hfl : fl < 2 ^ 24) (h1 : i < 2 ^ 32) (h2 : t < 2 ^ 32) (h3 : e < 2 ^ 32) (h4 : f < 2 ^ 32)
    (h5 : rs < 2 ^ 16) (h6 : n < 2 ^ 16) (hs : sz < 2 ^ 32) (hs8 : 8 ≤ sz) (hlen : sz ≤ 32 + rest.length)
    (hp : parseAtom parse (be 4 sz ++ be 4 (fcc 's' 'i' 'd' 'x') ++ (be 1 v ++ be 3 fl ++ (be 4 i ++ (be 4 t ++
      (be 4 e ++ (be 4 f ++ (be 2 rs ++ (be 2 n ++ rest)))))))) = .ok (b, h, r)) :
    sz = if n = 0 then 32 else 32 + 12 * (65536 - n) := by
  unfold parseAtom at hp
  have ht : fcc 's' 'i' 'd' 'x' = typeSidx := by decide
  rw [ht, parseHeader_small (by omega) hs8 (by decide) (by decide) _ (by simp; omega)] at hp
  simp only at hp
  cases hq : parse ⟨sz, typeSidx, [], 0, 8⟩ ⟨be 1 v ++ be 3 fl ++ (be 4 i ++ (be 4 t ++
      (be 4 e ++ (be 4 f ++ (be 2 rs ++ (be 2 n ++ rest)))))), 8⟩ with
  | err e => rw [hq] at hp; cases hp
  | ub => rw [hq] at hp; cases hp
  | ok q =>
    clear hp
    obtain ⟨q, s'⟩ := q
    unfold parse at hq
    simp only [P.bind_apply, parses_versionFlags hv hfl _ _, parses_get32' h1 _ _, parses_get32' h2 _ _,
      parses_get32' h3 _ _, parses_get32' h4 _ _, parses_get16' h5 _ _, parses_get16' h6 _ _] at hq
    generalize hl : loop 65537 0 _ _ = res at hq
    rcases res with ⟨b', t'⟩ | _ | _
    · obtain ⟨k, hk, h7, h8⟩ := loop_rounds _ _ _ _ _ _ hl h6
      simp only [P.bytesRead] at hq
      by_cases hbr : t'.read = sz
      · simp only [List.length_append, be_length] at hk
        simp only [Nat.zero_add] at h7 h8
        by_cases hn : n = 0
        · rw [if_pos hn]
          have : k = 0 := by
            rcases Nat.eq_zero_or_pos k with hk0 | hk0
            · exact hk0
            · have := h8 0 hk0; omega
          omega
        · rw [if_neg hn]
          have h9 : 65536 - n ≤ k := by omega
          have h10 : ¬ (65536 - n < k) := fun hlt => by
            have := h8 (65536 - n) hlt
            have e : n + (65536 - n) = 65536 := by omega
            rw [e] at this
            omega
          omega
      · rw [if_neg hbr] at hq
        cases hq
    · cases hq
    · cases hq

/-- No index with a reference that was written can be parsed, whatever the bytes in the gap and after
the box are. -/
theorem c37_fails (b : Box) (hb : Fits b) (hne : b.refs ≠ []) (gap rest : Bytes)
    (hgap : gap.length = 4 * b.refs.length) :
    ∃ bytes, runW (size b) (serialize b) = .ok bytes ∧ (bytes ++ gap).length = size b ∧
      ∀ r, parseAtom parse (bytes ++ gap ++ rest) ≠ .ok r := by
  obtain ⟨h1, h2⟩ := c37_written b hb
  refine ⟨_, h1, ?_, ?_⟩
  · rw [h2]; simp only [List.length_append, be_length]; omega
  · rintro ⟨b', h, r⟩ hp
    obtain ⟨f1, f2, f3, f4, f5⟩ := hb.fields
    have hc := hb.count.2
    have hpos : 0 < b.refs.length := List.length_pos_iff.2 hne
    have hr : (b.refs.flatMap refBytes).length = 12 * b.refs.length :=
      flatMap_length_const _ fun r _ => by simp [refBytes]
    have := parse_rounds (sz := 32 + 16 * b.refs.length) (n := b.refs.length)
      (rest := b.refs.flatMap refBytes ++ (gap ++ rest)) hb.version hb.flags f1 f2 f3 f4 f5 hc (by omega) (by omega)
      (by simp only [List.length_append, hr]; omega) (b := b') (h := h) (r := r)
      (by rw [← hp]; simp [body])
    rw [if_neg (by omega)] at this
    omega

/-- Nor can an index that another program wrote in the standard layout, except for one number of
references. -/
theorem c37_others_fail (b : Box) (hb : Fits b) (rest : Bytes) (r : Box × Hdr × Bytes)
    (hp : parseAtom parse (fullBox (fcc 's' 'i' 'd' 'x') b.version b.flags (body b) ++ rest) = .ok r) :
    b.refs = [] ∨ b.refs.length = 32768 := by
  obtain ⟨f1, f2, f3, f4, f5⟩ := hb.fields
  have hc := hb.count.2
  have hr : (b.refs.flatMap refBytes).length = 12 * b.refs.length :=
    flatMap_length_const _ fun r _ => by simp [refBytes]
  have hbody : (body b).length = 20 + 12 * b.refs.length := by
    simp only [body, List.length_append, be_length, hr]; omega
  have := parse_rounds (sz := 32 + 12 * b.refs.length) (n := b.refs.length)
    (rest := b.refs.flatMap refBytes ++ rest) hb.version hb.flags f1 f2 f3 f4 f5 hc (by omega) (by omega)
    (by simp only [List.length_append, hr]; omega) (b := r.1) (h := r.2.1) (r := r.2.2)
    (by rw [show ((r.1, r.2.1, r.2.2) : Box × Hdr × Bytes) = r from rfl, ← hp]
        have e : 8 + (be 1 b.version ++ be 3 b.flags ++ body b).length = 32 + 12 * b.refs.length := by
          simp only [List.length_append, be_length, hbody]; omega
        simp only [fullBox, box, e]
        simp [body])
  by_cases hn : b.refs.length = 0
  · exact .inl (List.length_eq_zero_iff.1 hn)
  · rw [if_neg hn] at this
    right; omega

/-- What the parser makes of one reference: the size is cut to 15 bits, the other fields are right. -/
theorem c37_ref_size_cut (r : Ref) (hr : RefFits r) :
    Parses getRef (refBytes r) { r with size := r.size % 2 ^ 15 } := by
  obtain ⟨h1, h2, h3, h4, h5, h6⟩ := hr
  unfold getRef refBytes
  refine (parses_get32' (by omega)).bind ((parses_get32' h3).bind ((parses_get32' (by omega)).bind_nil ?_))
  have e1 : ((r.type * 2 ^ 31 + r.size) >>> 31) &&& 1 = r.type := by
    rw [Nat.shiftRight_eq_div_pow, Nat.and_one_is_mod]; omega
  have e2 : (r.type * 2 ^ 31 + r.size) &&& 0x7FFF = r.size % 2 ^ 15 := by
    rw [show (0x7FFF : Nat) = 2 ^ 15 - 1 by decide, Nat.and_two_pow_sub_one_eq_mod]; omega
  have e3 : ((r.starts * 2 ^ 31 + r.sap * 2 ^ 28 + r.delta) >>> 31) &&& 1 = r.starts := by
    rw [Nat.shiftRight_eq_div_pow, Nat.and_one_is_mod]; omega
  have e4 : ((r.starts * 2 ^ 31 + r.sap * 2 ^ 28 + r.delta) >>> 28) &&& 7 = r.sap := by
    rw [Nat.shiftRight_eq_div_pow, show (7 : Nat) = 2 ^ 3 - 1 by decide, Nat.and_two_pow_sub_one_eq_mod]; omega
  have e5 : (r.starts * 2 ^ 31 + r.sap * 2 ^ 28 + r.delta) &&& 0x0FFFFFFF = r.delta := by
    rw [show (0x0FFFFFFF : Nat) = 2 ^ 28 - 1 by decide, Nat.and_two_pow_sub_one_eq_mod]; omega
  rw [e1, e2, e3, e4, e5]
  exact parses_pure _

/-- The full property holds only for an index without references: what remains of "writing a segment
index with any references and parsing it returns the same references". -/
theorem c37_round_trip_partial (b : Box) (hb : Fits b) (he : b.refs = []) :
    BoxRoundTrip (size b) (serialize b) parse b (fullBox (fcc 's' 'i' 'd' 'x') b.version b.flags (body b)) := by
  obtain ⟨h1, h2⟩ := c37_written b hb
  obtain ⟨f1, f2, f3, f4, f5⟩ := hb.fields
  have hc : b.count = 0 := by rw [hb.count.1, he]; rfl
  have hbody : (body b).length = 20 := by simp [body, he]
  have ht : fcc 's' 'i' 'd' 'x' = typeSidx := by decide
  have hsz : size b = 32 := by rw [h2, he, hbody]; rfl
  have e : fullBox (fcc 's' 'i' 'd' 'x') b.version b.flags (body b) = be 4 32 ++ be 4 typeSidx ++
      (be 1 b.version ++ be 3 b.flags ++ body b) := by
    have : 8 + (be 1 b.version ++ be 3 b.flags ++ body b).length = 32 := by
      simp only [List.length_append, be_length, hbody]
    simp only [fullBox, box, this, ht]
  rw [e]
  refine ⟨?_, ?_, fun rest => ⟨⟨32, typeSidx, [], 0, 8⟩, ?_⟩⟩
  · rw [h1, he, ht]; rfl
  · rw [hsz]; simp only [List.length_append, be_length, hbody]
  · refine parseAtom_small ?_ (by simp only [List.length_append, be_length, hbody]) (by decide) (by decide) (by decide) rest
    unfold parse
    refine ParsesAt.bind ((parses_versionFlags hb.version hb.flags).at _) ?_
    unfold body
    refine ParsesAt.bind ((parses_get32' f1).at _) ?_
    refine ParsesAt.bind ((parses_get32' f2).at _) ?_
    refine ParsesAt.bind ((parses_get32' f3).at _) ?_
    refine ParsesAt.bind ((parses_get32' f4).at _) ?_
    refine ParsesAt.bind ((parses_get16' f5).at _) ?_
    refine ParsesAt.bind ((parses_get16' hb.count.2).at _) ?_
    refine ParsesAt.bind (x := []) (a := b) (b := b) ?_ ?_
    · have e2 : (⟨b.version, b.flags, b.id, b.timescale, b.earliest, b.first, b.reserved, b.refs.length, []⟩ : Box) = b := by
        rw [← hb.count.1, ← he]
      rw [e2]
      unfold loop
      rw [if_neg (by omega)]
      exact (parses_pure _).at _
    · rw [he]
      refine parsesAt_bytesRead ?_
      rw [if_pos (by simp)]
      exact (parses_pure _).at _

/-! ## Cases that meet the hypotheses -/

def two : Box := [⟨0, 70000, 90000, 1, 1, 0⟩, ⟨1, 5, 90000, 0, 0, 7⟩].foldl addReference ⟨0, 0, 1, 90000, 0, 0, 0, 0, []⟩

theorem two_fits : Fits two := by
  refine ⟨by decide, by decide, by decide, by decide, ?_⟩
  intro r hr
  have e : two.refs = [⟨0, 70000, 90000, 1, 1, 0⟩, ⟨1, 5, 90000, 0, 0, 7⟩] := by decide
  rw [e] at hr
  simp only [List.mem_cons, List.not_mem_nil, or_false] at hr
  rcases hr with rfl | rfl <;> exact ⟨by decide, by decide, by decide, by decide, by decide, by decide⟩

example : Fits two ∧ two.refs ≠ [] ∧ runW (size two) (serialize two) ≠ .ub ∧
    (runW (size two) (serialize two)).bind (fun bs => (parseAtom parse (bs ++ List.replicate 40 0)).bind fun r => .ok r.1) =
      .err .ioErr := ⟨two_fits, by decide, by decide, by decide +kernel⟩

example : Fits ⟨0, 0, 1, 90000, 0, 0, 0, 0, []⟩ :=
  ⟨by decide, by decide, by decide, by decide, by intro r hr; cases hr⟩

end Verif.Sidx
