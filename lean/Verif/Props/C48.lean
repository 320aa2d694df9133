import Verif.Props.C23
import Verif.Props.C22
import Verif.Lemmas.Box

/-!
# C48 — compact sample groups survive being written and parsed, if there are few patterns
-/

namespace Verif.Csgp

/-! ### Layout -/

/-- 4-bit numbers, two in a byte, the first in the high half; the last half byte is 0. -/
def nibbles : List Nat → Bytes
  | [] => []
  | [a] => [UInt8.ofNat (16 * a)]
  | a :: b :: r => UInt8.ofNat (16 * a + b) :: nibbles r

/-- Numbers of `size` bits. -/
def fields (size : Nat) (vs : List Nat) : Bytes :=
  if size = 4 then nibbles vs else vs.flatMap (be (size / 8))

/-- A pattern entry: two numbers of `p` and `c` bits. -/
def entryBytes (p c : Nat) (e : Nat × Nat) : Bytes :=
  if p = 4 then nibbles [e.1, e.2] else be (p / 8) e.1 ++ be (c / 8) e.2

/-- Grouping type, optional parameter, number of patterns, patterns, indices. -/
def payload (c : Compact) : Bytes :=
  be 4 c.groupingType ++ ((match c.param with | some v => be 4 v | none => []) ++
    (be 4 c.out.patterns.length ++ (c.out.patterns.flatMap (entryBytes c.psize c.csize) ++
      fields c.isize c.out.descs)))

/-- The flags: two bits each for the sizes of index, sample count and pattern length fields, a bit
for the parameter, a bit for marked fragment-local indices. -/
def flagBits (c : Compact) : Nat :=
  (if c.isize = 4 then 0 else if c.isize = 8 then 1 else if c.isize = 16 then 2 else 3) +
  4 * (if c.csize = 4 then 0 else if c.csize = 8 then 1 else if c.csize = 16 then 2 else 3) +
  16 * (if c.psize = 4 then 0 else if c.psize = 8 then 1 else if c.psize = 16 then 2 else 3) +
  (if c.param.isSome then 64 else 0) + (if c.msb then 128 else 0)

def layout (version : Nat) (c : Compact) : Bytes :=
  fullBox (fcc 'c' 's' 'g' 'p') version (flagBits c) (payload c)

/-- A consistent compact form: what `c23_compact_lossless` gives. -/
structure Valid (c : Compact) : Prop where
  isize : IsSize c.isize
  psize : IsSize c.psize
  csize : IsSize c.csize
  aligned : (c.psize + c.csize) % 8 = 0
  entries : ∀ e ∈ c.out.patterns, 1 ≤ e.1 ∧ e.1 ≤ e.2 ∧ e.1 < 2 ^ c.psize ∧ e.2 < 2 ^ c.csize
  descs : ∀ v ∈ c.out.descs, v < 2 ^ c.isize
  total : c.out.descs.length = (c.out.patterns.map (·.1)).sum
  few : (c.out.patterns.map (·.2)).sum < 33554432
  groupingType : c.groupingType < 4294967296
  param : ∀ v, c.param = some v → v < 4294967296

/-! ### Writing -/

theorem emits_pack {size v : Nat} (h : IsSize size) (h4 : size ≠ 4) (b : Bool) :
    Emits (pack size b v) (be (size / 8) v) := by
  unfold pack
  rw [if_neg h4]
  rcases h with rfl | rfl | rfl | rfl
  · exact absurd rfl h4
  · exact emits_put8 v
  · rw [if_neg (by omega), if_pos rfl]; exact emits_put16 v
  · rw [if_neg (by omega), if_neg (by omega), if_pos rfl]; exact emits_put32 v

theorem emits_pack_hi {a : Nat} (ha : a < 16) : Emits (pack 4 false a) [UInt8.ofNat (16 * a)] := by
  have e : a <<< 4 % 4294967296 = 16 * a := by rw [Nat.shiftLeft_eq]; omega
  rw [show pack 4 false a = put8 (a <<< 4 % 4294967296) from rfl, e, ← be1]
  exact emits_put8 _

theorem pack_lo (s : WS) (x : UInt8) (b : Nat) :
    pack 4 true b { s with out := s.out ++ [x] } = put8 (x.toNat ||| (b &&& 15)) s := by
  show (match (s.out ++ [x]).getLast? with
    | none => Res.ub
    | some y => put8 (y.toNat ||| (b &&& 15)) { out := (s.out ++ [x]).dropLast, size := s.size }) = _
  rw [List.getLast?_concat, List.dropLast_concat]

theorem W.seq_assoc (a b c : W) : ((a ;; b) ;; c) = (a ;; (b ;; c)) := by
  funext s
  unfold W.seq
  cases a s <;> rfl

/-- Two nibbles written one after the other make a byte. -/
theorem emits_pair {a b : Nat} (ha : a < 16) (hb : b < 16) :
    Emits (pack 4 false a ;; pack 4 true b) [UInt8.ofNat (16 * a + b)] := by
  intro s h1 h2
  unfold W.seq
  rw [emits_pack_hi ha s h1 h2]
  by_cases h : s.out.length + 1 ≤ s.size
  · have e1 : s.out.length + [UInt8.ofNat (16 * a)].length ≤ s.size := by simpa using h
    have e2 : s.out.length + [UInt8.ofNat (16 * a + b)].length ≤ s.size := by simpa using h
    rw [if_pos e1, if_pos e2]
    simp only [Res.bind]
    rw [pack_lo]
    have e : (UInt8.ofNat (16 * a)).toNat ||| (b &&& 15) = 16 * a + b := by
      rw [ofNat_toNat_mod, show (15 : Nat) = 2 ^ 4 - 1 from rfl, Nat.and_two_pow_sub_one_eq_mod,
        Nat.mod_eq_of_lt (show 16 * a < 256 by omega), Nat.mod_eq_of_lt (show b < 2 ^ 4 by omega)]
      have := or_shift_eq (a := a) (n := 4) (show b < 2 ^ 4 by omega)
      rw [Nat.shiftLeft_eq, Nat.mul_comm] at this
      rw [show 16 * a = 2 ^ 4 * a by omega, this]
    rw [e]
    have := emits_put8 (16 * a + b) s (by omega) (by simpa using h2)
    rw [if_pos (by simpa using h)] at this
    rw [this, be1]
  · have e1 : ¬ s.out.length + [UInt8.ofNat (16 * a)].length ≤ s.size := by simpa using h
    have e2 : ¬ s.out.length + [UInt8.ofNat (16 * a + b)].length ≤ s.size := by simpa using h
    rw [if_neg e1, if_neg e2]
    rfl

theorem emits_nibbles : ∀ (vs : List Nat) (i : Nat), i % 2 = 0 → (∀ v ∈ vs, v < 16) →
    Emits (packIndices 4 i vs) (nibbles vs)
  | [], _, _, _ => emits_skip
  | [a], i, hi, hv => by
    unfold packIndices packIndices nibbles
    have e : decide (i % 2 = 1) = false := by simp; omega
    rw [e]
    have := (emits_pack_hi (hv a (by simp))).seq emits_skip
    simpa using this
  | a :: b :: r, i, hi, hv => by
    unfold packIndices packIndices nibbles
    have e : decide (i % 2 = 1) = false := by simp; omega
    have e' : decide ((i + 1) % 2 = 1) = true := by simp; omega
    rw [e, e']
    have ih := emits_nibbles r (i + 1 + 1) (by omega) fun v hv' => hv v (by simp [hv'])
    have h := (emits_pair (hv a (by simp)) (hv b (by simp))).seq ih
    intro s h1 h2
    have := h s h1 h2
    rw [← W.seq_assoc]
    exact this

theorem emits_wide {size : Nat} (h : IsSize size) (h4 : size ≠ 4) : ∀ (vs : List Nat) (i : Nat),
    Emits (packIndices size i vs) (vs.flatMap (be (size / 8))) := by
  intro vs
  induction vs with
  | nil => intro i; exact emits_skip
  | cons v vs ih => intro i; exact (emits_pack h h4 _).seq (ih (i + 1))

theorem emits_fields {size : Nat} (h : IsSize size) (vs : List Nat) (hv : ∀ v ∈ vs, v < 2 ^ size) :
    Emits (packIndices size 0 vs) (fields size vs) := by
  unfold fields
  by_cases h4 : size = 4
  · subst h4; rw [if_pos rfl]; exact emits_nibbles vs 0 rfl hv
  · rw [if_neg h4]; exact emits_wide h h4 vs 0

theorem emits_entry {p c : Nat} (hp : IsSize p) (hc : IsSize c) (ha : (p + c) % 8 = 0) {e : Nat × Nat}
    (h1 : e.1 < 2 ^ p) (h2 : e.2 < 2 ^ c) :
    Emits (pack p false e.1 ;; pack c (p = 4) e.2) (entryBytes p c e) := by
  unfold entryBytes
  by_cases h4 : p = 4
  · subst h4
    have hc4 : c = 4 := by rcases hc with h | h | h | h <;> omega
    subst hc4
    rw [if_pos rfl]
    exact emits_pair h1 h2
  · rw [if_neg h4]
    have hc4 : c ≠ 4 := by
      intro h; subst h
      rcases hp with h | h | h | h <;> omega
    exact (emits_pack hp h4 _).seq (emits_pack hc hc4 _)

theorem nibbles_length : ∀ vs : List Nat, (nibbles vs).length = (vs.length + 1) / 2
  | [] => rfl
  | [a] => by simp [nibbles]
  | a :: b :: r => by
    have := nibbles_length r
    simp only [nibbles, List.length_cons]
    omega

theorem fields_length {size : Nat} (h : IsSize size) (vs : List Nat) :
    (fields size vs).length = (vs.length * size + 4) / 8 := by
  unfold fields
  by_cases h4 : size = 4
  · subst h4; rw [if_pos rfl, nibbles_length]; omega
  · rw [if_neg h4, flatMap_length_const vs (c := size / 8) (by simp)]
    rcases h with rfl | rfl | rfl | rfl <;> omega

theorem entries_length {p c : Nat} (hp : IsSize p) (hc : IsSize c) (ha : (p + c) % 8 = 0)
    (es : List (Nat × Nat)) : (es.flatMap (entryBytes p c)).length = es.length * ((p + c) / 8) := by
  rw [flatMap_length_const es (c := (p + c) / 8), Nat.mul_comm]
  intro e _
  unfold entryBytes
  by_cases h4 : p = 4
  · subst h4
    have hc4 : c = 4 := by rcases hc with h | h | h | h <;> omega
    subst hc4
    rfl
  · rw [if_neg h4, List.length_append, be_length, be_length]
    rcases hp with rfl | rfl | rfl | rfl <;> rcases hc with rfl | rfl | rfl | rfl <;> omega

theorem sum_le : ∀ (es : List (Nat × Nat)), (∀ e ∈ es, 1 ≤ e.1 ∧ e.1 ≤ e.2) →
    es.length ≤ (es.map (·.2)).sum ∧ (es.map (·.1)).sum ≤ (es.map (·.2)).sum := by
  intro es
  induction es with
  | nil => simp
  | cons e es ih =>
    intro h
    have := ih fun x hx => h x (by simp [hx])
    have := h e (by simp)
    simp only [List.length_cons, List.map_cons, List.sum_cons]
    omega

theorem Valid.size {c : Compact} (h : Valid c) :
    calcSize c = 12 + (payload c).length ∧ calcSize c < 4294967296 ∧ c.out.patterns.length < 33554432 := by
  obtain ⟨l1, l2⟩ := sum_le c.out.patterns fun e he => ⟨(h.entries e he).1, (h.entries e he).2.1⟩
  have l3 := h.few
  have l4 := h.total
  have hlen : (payload c).length = 8 + (if c.param.isSome then 4 else 0) +
      (c.out.patterns.length * ((c.psize + c.csize) / 8) + (c.out.descs.length * c.isize + 4) / 8) := by
    unfold payload
    rw [List.length_append, List.length_append, List.length_append, List.length_append, be_length, be_length,
      entries_length h.psize h.csize h.aligned, fields_length h.isize]
    cases c.param with
    | none => simp; omega
    | some v => simp; omega
  have a1 : c.out.patterns.length * (c.psize + c.csize) = 8 * (c.out.patterns.length * ((c.psize + c.csize) / 8)) := by
    rw [Nat.mul_left_comm]
    congr 1
    have := h.aligned
    omega
  have p32 : c.psize ≤ 32 := by rcases h.psize with h | h | h | h <;> omega
  have c32 : c.csize ≤ 32 := by rcases h.csize with h | h | h | h <;> omega
  have i32 : c.isize ≤ 32 := by rcases h.isize with h | h | h | h <;> omega
  have b1 : c.out.patterns.length * (c.psize + c.csize) ≤ c.out.patterns.length * 64 :=
    Nat.mul_le_mul_left _ (by omega)
  have b2 : c.out.descs.length * c.isize ≤ c.out.descs.length * 32 := Nat.mul_le_mul_left _ i32
  have e0 : (c.psize + c.csize) % 4294967296 = c.psize + c.csize := by omega
  unfold calcSize
  rw [hlen, e0]
  generalize c.out.patterns.length * (c.psize + c.csize) = A at *
  generalize c.out.descs.length * c.isize = B at *
  generalize c.out.patterns.length * ((c.psize + c.csize) / 8) = C at *
  split <;> omega

/-! ### Reading numbers -/

/-- The unread bytes hold the numbers `vs` (a nibble may be pending), then `more`. -/
def Holds (size : Nat) (nib : Option Nat) (rest : Bytes) (vs : List Nat) (more : Bytes) : Prop :=
  (nib = none ∧ rest = fields size vs ++ more) ∨
  (size = 4 ∧ ∃ x, nib = some x ∧ rest = nibbles vs.tail ++ more ∧ ∀ v ∈ vs.head?, v = x)

theorem orBad_ok {α : Type} {p : P α} {s s' : PS} {a : α} (h : p s = .ok (a, s')) : orBad p s = .ok (a, s') := by
  unfold orBad; rw [h]

theorem getData_step {size : Nat} (hs : IsSize size) {nib : Option Nat} {rest : Bytes} {v : Nat}
    {vs : List Nat} {more : Bytes} (hv : ∀ x ∈ v :: vs, x < 2 ^ size) (h : Holds size nib rest (v :: vs) more) (k : Nat) :
    ∃ nib' rest' k', getData size nib ⟨rest, k⟩ = .ok ((v, nib'), ⟨rest', k'⟩) ∧
      Holds size nib' rest' vs more ∧ k' + rest'.length = k + rest.length := by
  have hv0 := hv v (by simp)
  rcases h with ⟨rfl, rfl⟩ | ⟨rfl, x, rfl, rfl, hx⟩
  · by_cases h4 : size = 4
    · subst h4
      unfold fields
      rw [if_pos rfl]
      cases vs with
      | nil =>
        refine ⟨some 0, more, k + 1, ?_, Or.inr ⟨rfl, 0, rfl, by simp [nibbles], by simp⟩, by simp [nibbles]; omega⟩
        apply orBad_ok
        rw [if_pos rfl]
        simp only [nibbles, P.bind_apply, get8, rd8, List.cons_append, List.nil_append, Res.ok_bind, Res.pure_def,
          P.pure_apply, ofNat_toNat_mod]
        have e1 : (16 * v % 256) >>> 4 = v := by rw [Nat.shiftRight_eq_div_pow]; omega
        have e2 : 16 * v % 256 &&& 15 = 0 := by
          rw [show (15 : Nat) = 2 ^ 4 - 1 from rfl, Nat.and_two_pow_sub_one_eq_mod]; omega
        rw [e1, e2]
      | cons w ws =>
        have hw := hv w (by simp)
        refine ⟨some w, nibbles ws ++ more, k + 1, ?_, Or.inr ⟨rfl, w, rfl, rfl, by simp⟩, by simp [nibbles]; omega⟩
        apply orBad_ok
        rw [if_pos rfl]
        simp only [nibbles, P.bind_apply, get8, rd8, List.cons_append, Res.ok_bind, Res.pure_def,
          P.pure_apply, ofNat_toNat_mod]
        have e1 : ((16 * v + w) % 256) >>> 4 = v := by rw [Nat.shiftRight_eq_div_pow]; omega
        have e2 : (16 * v + w) % 256 &&& 15 = w := by
          rw [show (15 : Nat) = 2 ^ 4 - 1 from rfl, Nat.and_two_pow_sub_one_eq_mod]; omega
        rw [e1, e2]
    · unfold fields
      rw [if_neg h4, List.flatMap_cons, List.append_assoc]
      refine ⟨none, vs.flatMap (be (size / 8)) ++ more, k + size / 8, ?_,
        Or.inl ⟨rfl, by unfold fields; rw [if_neg h4]⟩, by simp; omega⟩
      apply orBad_ok
      rw [if_neg h4]
      rcases hs with rfl | rfl | rfl | rfl
      · exact absurd rfl h4
      · rw [if_pos rfl, P.bind_apply, parses_get8' hv0]; simp [P.pure_apply]
      · rw [if_neg (by omega), if_pos rfl, P.bind_apply, parses_get16' hv0]; simp [P.pure_apply]
      · rw [if_neg (by omega), if_neg (by omega), if_pos rfl, P.bind_apply, parses_get32' hv0]; simp [P.pure_apply]
  · have hvx : v = x := hx v (by simp)
    subst hvx
    refine ⟨none, nibbles vs ++ more, k, ?_, Or.inl ⟨rfl, by unfold fields; rw [if_pos rfl]⟩, rfl⟩
    apply orBad_ok
    rw [if_pos rfl]
    rfl

theorem parses_entries {p c : Nat} (hp : IsSize p) (hc : IsSize c) (ha : (p + c) % 8 = 0) :
    ∀ (es : List (Nat × Nat)), (∀ e ∈ es, e.1 < 2 ^ p ∧ e.2 < 2 ^ c) →
    Parses (getEntries p c es.length none) (es.flatMap (entryBytes p c)) (es, none) := by
  intro es
  induction es with
  | nil => intro _; exact parses_pure _
  | cons e es ih =>
    intro h
    obtain ⟨h1, h2⟩ := h e (by simp)
    have ih := ih fun x hx => h x (by simp [hx])
    intro r k
    simp only [List.length_cons, getEntries, List.flatMap_cons, List.append_assoc]
    by_cases h4 : p = 4
    · subst h4
      have hc4 : c = 4 := by rcases hc with h | h | h | h <;> omega
      subst hc4
      obtain ⟨n1, r1, k1, a1, a2, a3⟩ := getData_step (size := 4) (Or.inl rfl) (nib := none)
        (rest := nibbles [e.1, e.2] ++ (es.flatMap (entryBytes 4 4) ++ r)) (v := e.1) (vs := [e.2])
        (more := es.flatMap (entryBytes 4 4) ++ r) (by simp; exact ⟨h1, h2⟩) (Or.inl ⟨rfl, by simp [fields]⟩) k
      obtain ⟨n2, r2, k2, b1, b2, b3⟩ := getData_step (size := 4) (Or.inl rfl) (by simp; exact h2) a2 k1
      have hr2 : n2 = none ∧ r2 = es.flatMap (entryBytes 4 4) ++ r := by
        rcases b2 with ⟨x, y⟩ | ⟨_, x, hx, y, _⟩
        · exact ⟨x, by simpa [fields, nibbles] using y⟩
        · exfalso
          rcases a2 with ⟨q, _⟩ | ⟨_, q, hq, _⟩
          · -- the first read leaves a nibble
            subst q
            unfold getData orBad at a1
            simp only [if_pos, nibbles, P.bind_apply, get8, rd8, List.cons_append, Res.ok_bind, Res.pure_def,
              P.pure_apply] at a1
            injection a1 with a1
            injection a1 with a1 _
            injection a1 with _ a1
            cases a1
          · subst hq
            unfold getData orBad at b1
            simp only [if_pos, P.pure_apply] at b1
            cases b1
            cases hx
      obtain ⟨rfl, rfl⟩ := hr2
      have e1 : entryBytes 4 4 e = nibbles [e.1, e.2] := rfl
      rw [e1, P.bind_apply, a1]
      simp only
      rw [P.bind_apply, b1]
      simp only
      rw [P.bind_apply, ih r k2]
      simp only [P.pure_apply]
      congr 3
      simp only [List.length_append] at a3 b3 ⊢
      omega
    · have hc4 : c ≠ 4 := by
        intro h; subst h
        rcases hp with h | h | h | h <;> omega
      have step : ∀ {size v : Nat} (hs : IsSize size) (h4 : size ≠ 4) (hv : v < 2 ^ size),
          Parses (getData size none) (be (size / 8) v) (v, none) := by
        intro size v hs h4 hv r k
        unfold getData
        apply orBad_ok
        rw [if_neg h4]
        rcases hs with rfl | rfl | rfl | rfl
        · exact absurd rfl h4
        · rw [if_pos rfl, P.bind_apply, parses_get8' hv]; rfl
        · rw [if_neg (by omega), if_pos rfl, P.bind_apply, parses_get16' hv]; rfl
        · rw [if_neg (by omega), if_neg (by omega), if_pos rfl, P.bind_apply, parses_get32' hv]; rfl
      have e1 : entryBytes p c e = be (p / 8) e.1 ++ be (c / 8) e.2 := by unfold entryBytes; rw [if_neg h4]
      rw [e1, List.append_assoc, P.bind_apply, step hp h4 h1]
      simp only
      rw [P.bind_apply, step hc hc4 h2]
      simp only
      rw [P.bind_apply, ih]
      simp only [P.pure_apply, List.length_append, Nat.add_assoc]

/-! ### The meaning of indices -/

theorem and_high {v k : Nat} (hv : v < 4294967296) (hk : k ≤ 32) :
    v &&& (4294967295 - (2 ^ k - 1)) = 0 ↔ v < 2 ^ k := by
  have hp : 0 < 2 ^ k := Nat.pow_pos (by omega)
  have hpk : 2 ^ k * 2 ^ (32 - k) = 4294967296 := by
    rw [← Nat.pow_add, show k + (32 - k) = 32 by omega]
  have hm : 4294967295 - (2 ^ k - 1) = 2 ^ k * (2 ^ (32 - k) - 1) := by
    rw [Nat.mul_sub, hpk]; omega
  rw [hm]
  have hdiv : (v &&& 2 ^ k * (2 ^ (32 - k) - 1)) / 2 ^ k = v / 2 ^ k := by
    rw [Nat.and_div_two_pow, Nat.mul_div_cancel_left _ hp, Nat.and_two_pow_sub_one_eq_mod, Nat.mod_eq_of_lt]
    rw [Nat.div_lt_iff_lt_mul hp, Nat.mul_comm, hpk]
    exact hv
  have hmod : (v &&& 2 ^ k * (2 ^ (32 - k) - 1)) % 2 ^ k = 0 := by
    rw [Nat.and_mod_two_pow, Nat.mul_mod_right, Nat.and_zero]
  constructor
  · intro h
    rw [h, Nat.zero_div] at hdiv
    have := (Nat.div_eq_zero_iff).mp hdiv.symm
    omega
  · intro h
    rw [Nat.div_eq_of_lt h] at hdiv
    rw [← Nat.div_add_mod (v &&& 2 ^ k * (2 ^ (32 - k) - 1)) (2 ^ k), hdiv, hmod]
    rfl

theorem readIndex_eq {msb : Bool} {size v : Nat} (hs : IsSize size) (hv : v < 2 ^ size) :
    readIndex msb size v = decIndex msb size v := by
  have h32 : v < 4294967296 := by rcases hs with rfl | rfl | rfl | rfl <;> omega
  unfold readIndex decIndex
  cases msb with
  | false =>
    have e : v &&& (4294967295 - 4294967295) = 0 := by simp
    have e2 : v &&& 4294967295 = v := by
      rw [show (4294967295 : Nat) = 2 ^ 32 - 1 from rfl, Nat.and_two_pow_sub_one_eq_mod, Nat.mod_eq_of_lt h32]
    simp only [Bool.false_eq_true, if_false, false_and]
    rw [if_neg (by simp), e2]
  | true =>
    have hsh : 4294967295 >>> (32 - size + 1) = 2 ^ (size - 1) - 1 := by
      rcases hs with rfl | rfl | rfl | rfl <;> decide
    simp only [if_true, true_and]
    rw [hsh, Nat.and_two_pow_sub_one_eq_mod]
    have hk := and_high (v := v) (k := size - 1) h32 (by rcases hs with rfl | rfl | rfl | rfl <;> omega)
    by_cases hlt : v < 2 ^ (size - 1)
    · have e0 := hk.mpr hlt
      rw [if_neg (by simpa using e0), if_neg (by omega), Nat.mod_eq_of_lt hlt]
    · have e0 : ¬ v &&& (4294967295 - (2 ^ (size - 1) - 1)) = 0 := fun h => hlt (hk.mp h)
      rw [if_pos e0, if_pos (by omega)]
      rcases hs with rfl | rfl | rfl | rfl <;> omega

theorem decLen_le (v : Nat) : 1 ≤ decLen v ∧ decLen v ≤ 11 := by
  have h : ∀ v, 1 ≤ decLen.decLenAbs v ∧ decLen.decLenAbs v ≤ 10 := by
    intro v
    unfold decLen.decLenAbs
    repeat' split
    all_goals exact ⟨by decide, by decide⟩
  have := h (4294967296 - v)
  unfold decLen
  repeat' split
  all_goals first | exact ⟨by decide, by decide⟩ | omega

theorem decIndex_lt {msb : Bool} {size v : Nat} (hs : IsSize size) (hv : v < 2 ^ size) :
    decIndex msb size v < 4294967296 := by
  unfold decIndex
  split
  · rcases hs with rfl | rfl | rfl | rfl <;> omega
  · rcases hs with rfl | rfl | rfl | rfl <;> omega

/-! ### Filling the array -/

/-- Sample `j` of a pattern. -/
def samp (msb : Bool) (size : Nat) (vs : List Nat) (p j : Nat) : Nat :=
  decIndex msb size (vs.getD (j % p) 0)

/-- One pattern: undefined if it starts too far in the message buffer, otherwise its samples are
put behind the earlier ones. -/
theorem fill_spec {size : Nat} (hs : IsSize size) {msb : Bool} {i p : Nat} {D vs ws : List Nat} {more : Bytes}
    (hp : 1 ≤ p) (hvs : vs.length = p) (hv : ∀ x ∈ vs ++ ws, x < 2 ^ size) :
    ∀ (m j : Nat) (t : List Nat) (nib : Option Nat) (rest : Bytes) (k : Nat), m ≤ t.length →
    Holds size nib rest (vs.drop j ++ ws) more → j + m ≥ p →
    (i ≤ 33 → ∃ nib' rest' k',
        fill size msb i D.length p m j (D ++ (List.range j).map (samp msb size vs p) ++ t) nib ⟨rest, k⟩ =
          .ok ((D ++ (List.range (j + m)).map (samp msb size vs p) ++ t.drop m, nib'), ⟨rest', k'⟩) ∧
        Holds size nib' rest' ws more ∧ k' + rest'.length = k + rest.length) ∧
    (39 ≤ i → j < p → 1 ≤ m →
      fill size msb i D.length p m j (D ++ (List.range j).map (samp msb size vs p) ++ t) nib ⟨rest, k⟩ = .ub) ∧
    (fill size msb i D.length p m j (D ++ (List.range j).map (samp msb size vs p) ++ t) nib ⟨rest, k⟩ = .ub ∨
      ∃ nib' rest' k',
        fill size msb i D.length p m j (D ++ (List.range j).map (samp msb size vs p) ++ t) nib ⟨rest, k⟩ =
          .ok ((D ++ (List.range (j + m)).map (samp msb size vs p) ++ t.drop m, nib'), ⟨rest', k'⟩) ∧
        Holds size nib' rest' ws more ∧ k' + rest'.length = k + rest.length) := by
  intro m
  induction m with
  | zero =>
    intro j t nib rest k _ h3 h4
    have hd : vs.drop j = [] := List.drop_of_length_le (by omega)
    rw [hd, List.nil_append] at h3
    exact ⟨fun _ => ⟨nib, rest, k, rfl, h3, rfl⟩, by omega, Or.inr ⟨nib, rest, k, rfl, h3, rfl⟩⟩
  | succ m ih =>
    intro j t nib rest k h2 h3 h4
    obtain ⟨t0, t, rfl⟩ : ∃ t0 t', t = t0 :: t' := by
      cases t with
      | nil => simp at h2
      | cons a b => exact ⟨a, b, rfl⟩
    simp only [List.length_cons] at h2
    have hl : (D ++ (List.range j).map (samp msb size vs p)).length = D.length + j := by simp
    -- storing the sample `j`
    have hset : ∀ x, x = samp msb size vs p j →
        Mem.set (D ++ (List.range j).map (samp msb size vs p) ++ t0 :: t) (D.length + j) x =
          .ok (D ++ (List.range (j + 1)).map (samp msb size vs p) ++ t) := by
      intro x hx
      subst hx
      unfold Mem.set
      rw [if_pos (by rw [List.length_append, hl]; simp), List.set_append_right _ _ (by omega), hl, Nat.sub_self,
        List.set_cons_zero, List.range_succ]
      simp
    unfold fill
    by_cases hj : j < p
    · rw [if_pos hj]
      obtain ⟨v, hvj⟩ : ∃ v, vs[j]? = some v := ⟨vs[j]'(by omega), List.getElem?_eq_getElem (by omega)⟩
      have hdrop : vs.drop j = v :: vs.drop (j + 1) := by
        rw [List.drop_eq_getElem_cons (by omega)]
        rw [List.getElem?_eq_getElem (by omega)] at hvj
        cases hvj; rfl
      rw [hdrop, List.cons_append] at h3
      have hvm : v < 2 ^ size := hv v (by
        rw [List.mem_append]; left; exact List.mem_of_getElem? hvj)
      obtain ⟨nib', rest', k', a1, a2, a3⟩ := getData_step hs (by
        intro x hx
        rcases List.mem_cons.mp hx with rfl | hx
        · exact hvm
        · apply hv
          rw [List.mem_append] at hx ⊢
          rcases hx with hx | hx
          · exact Or.inl (List.mem_of_mem_drop hx)
          · exact Or.inr hx) h3 k
      have hx : readIndex msb size v = samp msb size vs p j := by
        rw [readIndex_eq hs hvm]
        unfold samp
        rw [Nat.mod_eq_of_lt hj, List.getD_eq_getElem?_getD, hvj]
        rfl
      obtain ⟨d1, d2⟩ := decLen_le (readIndex msb size v)
      obtain ⟨i1, i2, i3⟩ := ih (j + 1) t nib' rest' k' (by omega) a2 (by omega)
      have e : j + 1 + m = j + (m + 1) := by omega
      rw [e] at i1 i3
      have hrun : (do
            let r ← getData size nib
            let cells ← P.lift (Mem.set (D ++ (List.range j).map (samp msb size vs p) ++ t0 :: t) (D.length + j)
              (readIndex msb size r.1))
            if 2 * i + decLen (readIndex msb size r.1) + 2 > 80 then P.bad else
            fill size msb i D.length p m (j + 1) cells r.2 : P (List Nat × Option Nat)) ⟨rest, k⟩ =
          if 2 * i + decLen (readIndex msb size v) + 2 > 80 then .ub
          else fill size msb i D.length p m (j + 1) (D ++ (List.range (j + 1)).map (samp msb size vs p) ++ t)
            nib' ⟨rest', k'⟩ := by
        rw [P.bind_apply, a1]
        simp only
        rw [P.bind_apply]
        simp only [P.lift, hset _ hx]
        split <;> rfl
      rw [hrun, List.drop_succ_cons]
      refine ⟨?_, ?_, ?_⟩
      · intro hi
        rw [if_neg (by omega)]
        obtain ⟨n1, r1, q1, f1, f4, f5⟩ := i1 hi
        exact ⟨n1, r1, q1, f1, f4, by omega⟩
      · intro hi _ _
        rw [if_pos (by omega)]
      · by_cases hroom : 2 * i + decLen (readIndex msb size v) + 2 > 80
        · rw [if_pos hroom]; exact Or.inl rfl
        · rw [if_neg hroom]
          rcases i3 with i3 | ⟨n1, r1, q1, f1, f4, f5⟩
          · exact Or.inl i3
          · exact Or.inr ⟨n1, r1, q1, f1, f4, by omega⟩
    · rw [if_neg hj, if_neg (by omega)]
      have hm : j % p < p := Nat.mod_lt _ (by omega)
      have hgetv : Mem.get (D ++ (List.range j).map (samp msb size vs p) ++ t0 :: t) (D.length + j % p) =
          .ok (samp msb size vs p j) := by
        unfold Mem.get
        rw [List.getElem?_append_left (by rw [hl]; have := Nat.mod_le j p; omega), List.getElem?_append_right (by omega),
          Nat.add_sub_cancel_left, List.getElem?_map, List.getElem?_range (by omega)]
        simp only [Option.map_some]
        unfold samp
        rw [Nat.mod_mod]
      have hd : vs.drop (j + 1) = vs.drop j := by
        rw [List.drop_of_length_le (by omega), List.drop_of_length_le (by omega)]
      obtain ⟨i1, i2, i3⟩ := ih (j + 1) t nib rest k (by omega) (by rw [hd]; exact h3) (by omega)
      have e : j + 1 + m = j + (m + 1) := by omega
      rw [e] at i1 i3
      have hrun : (do
            let v ← P.lift (Mem.get (D ++ (List.range j).map (samp msb size vs p) ++ t0 :: t) (D.length + j % p))
            let cells ← P.lift (Mem.set (D ++ (List.range j).map (samp msb size vs p) ++ t0 :: t) (D.length + j) v)
            fill size msb i D.length p m (j + 1) cells nib : P (List Nat × Option Nat)) ⟨rest, k⟩ =
          fill size msb i D.length p m (j + 1) (D ++ (List.range (j + 1)).map (samp msb size vs p) ++ t)
            nib ⟨rest, k⟩ := by
        rw [P.bind_apply]
        simp only [P.lift, hgetv]
        rw [P.bind_apply]
        simp only [P.lift, hset _ rfl]
      rw [hrun, List.drop_succ_cons]
      exact ⟨i1, fun _ h => absurd h hj, i3⟩

theorem expandCompact_cons (msb : Bool) (size p c : Nat) (es : List (Nat × Nat)) (ds : List Nat)
    (hp : 1 ≤ p) (hl : p ≤ ds.length) :
    expandCompact ((p, c) :: es) (ds.map (decIndex msb size)) =
      (List.range c).map (samp msb size (ds.take p) p) ++ expandCompact es ((ds.drop p).map (decIndex msb size)) := by
  show (List.range c).map (fun j => (ds.map (decIndex msb size)).getD (j % p) 0) ++
    expandCompact es ((ds.map (decIndex msb size)).drop p) = _
  rw [← List.map_drop]
  congr 1
  apply List.map_congr_left
  intro j _
  have hm : j % p < p := Nat.mod_lt _ (by omega)
  unfold samp
  rw [List.getD_eq_getElem?_getD, List.getD_eq_getElem?_getD, List.getElem?_map, List.getElem?_take_of_lt hm,
    List.getElem?_eq_getElem (by omega)]
  rfl

theorem expandCompact_length : ∀ (es : List (Nat × Nat)) (ds : List Nat),
    (expandCompact es ds).length = (es.map (·.2)).sum
  | [], _ => rfl
  | (p, c) :: es, ds => by simp [expandCompact, expandCompact_length es]

theorem fillAll_spec {size : Nat} (hs : IsSize size) {msb : Bool} {more : Bytes} :
    ∀ (es : List (Nat × Nat)) (ds D : List Nat) (i : Nat) (t : List Nat) (nib : Option Nat) (rest : Bytes) (k : Nat),
    (∀ e ∈ es, 1 ≤ e.1 ∧ e.1 ≤ e.2) → ds.length = (es.map (·.1)).sum → (∀ v ∈ ds, v < 2 ^ size) →
    (es.map (·.2)).sum ≤ t.length → Holds size nib rest ds more →
    (i + es.length ≤ 34 → ∃ k', fillAll size msb es i D.length (D ++ t) nib ⟨rest, k⟩ =
        .ok (D ++ expandCompact es (ds.map (decIndex msb size)) ++ t.drop (es.map (·.2)).sum, ⟨more, k'⟩) ∧
        k' + more.length = k + rest.length) ∧
    (i ≤ 39 → 40 ≤ i + es.length → fillAll size msb es i D.length (D ++ t) nib ⟨rest, k⟩ = .ub) := by
  intro es
  induction es with
  | nil =>
    intro ds D i t nib rest k _ hds _ _ hh
    have hds : ds = [] := List.length_eq_zero_iff.mp (by simpa using hds)
    subst hds
    have hrest : rest = more := by
      rcases hh with ⟨_, h⟩ | ⟨_, x, _, h, _⟩
      · rw [h]; unfold fields; split <;> rfl
      · rw [h]; rfl
    subst hrest
    refine ⟨fun _ => ⟨k, ?_, rfl⟩, ?_⟩
    · simp [expandCompact, fillAll, P.pure_apply]
    · intro a b
      simp at b
      omega
  | cons e es ih =>
    intro ds D i t nib rest k hes hds hv hlen hh
    obtain ⟨p, c⟩ := e
    have hpc := hes (p, c) (by simp)
    have hpc1 : 1 ≤ p := hpc.1
    have hpc2 : p ≤ c := hpc.2
    simp only [List.map_cons, List.sum_cons] at hds hlen
    have htk : (ds.take p).length = p := by simp; omega
    have hd0 : (ds.take p).drop 0 ++ ds.drop p = ds := by simp
    obtain ⟨f1, f2, f3⟩ := fill_spec hs (msb := msb) (i := i) (p := p) (D := D) (vs := ds.take p) (ws := ds.drop p)
      (more := more) hpc1 htk (by rw [List.take_append_drop]; exact hv) c 0 t nib rest k
      (by omega) (by rw [hd0]; exact hh) (by omega)
    rw [Nat.zero_add, List.range_zero, List.map_nil, List.append_nil] at f1 f3
    rw [List.range_zero, List.map_nil, List.append_nil] at f2
    have hlenD : (D ++ (List.range c).map (samp msb size (ds.take p) p)).length = D.length + c := by simp
    unfold fillAll
    have next := fun nib' rest' k' (g4 : Holds size nib' rest' (ds.drop p) more) =>
      ih (ds.drop p) (D ++ (List.range c).map (samp msb size (ds.take p) p)) (i + 1) (t.drop c) nib' rest' k'
        (fun x hx => hes x (by simp [hx])) (by rw [List.length_drop]; omega)
        (fun v hv' => hv v (List.mem_of_mem_drop hv')) (by rw [List.length_drop]; omega) g4
    rw [hlenD] at next
    refine ⟨?_, ?_⟩
    · intro hi
      simp only [List.length_cons] at hi
      obtain ⟨nib', rest', k', g1, g4, g5⟩ := f1 (by omega)
      obtain ⟨i1, _⟩ := next nib' rest' k' g4
      obtain ⟨k2, q1, q4⟩ := i1 (by omega)
      refine ⟨k2, ?_, by omega⟩
      rw [P.bind_apply, g1]
      simp only
      rw [q1, expandCompact_cons msb size p c es ds hpc1 (by omega), List.drop_drop]
      simp only [List.map_cons, List.sum_cons, List.append_assoc]
    · intro hi h40
      simp only [List.length_cons] at h40
      rw [P.bind_apply]
      by_cases h39 : i = 39
      · rw [f2 (by omega) (by omega) (by omega)]
      · have a1 : i + 1 ≤ 39 := by omega
        have a2 : 40 ≤ i + 1 + es.length := by omega
        rcases f3 with f3 | ⟨nib', rest', k', g1, g4, g5⟩
        · rw [f3]
        · rw [g1]
          exact (next nib' rest' k' g4).2 a1 a2

/-! ### The box -/

/-- All combinations of field sizes and options. -/
theorem flags_table : ∀ i ∈ [4, 8, 16, 32], ∀ k ∈ [4, 8, 16, 32], ∀ p ∈ [4, 8, 16, 32], ∀ m b : Bool,
    let c : Compact := ⟨⟨[], []⟩, i, p, k, m, 0, if b then some 0 else none⟩
    flagsOf c = some (flagBits c) ∧ flagBits c < 256 ∧
    4 <<< (flagBits c &&& 3) = i ∧ 4 <<< ((flagBits c &&& 0xC) >>> 2) = k ∧
    4 <<< ((flagBits c &&& 0x30) >>> 4) = p ∧ (flagBits c &&& 0x40 ≠ 0 ↔ b = true) ∧
    decide (flagBits c &&& 0x80 ≠ 0) = m := by
  decide +kernel

theorem flags_ok {c : Compact} (h : Valid c) : flagsOf c = some (flagBits c) ∧ flagBits c < 256 ∧
    4 <<< (flagBits c &&& 3) = c.isize ∧ 4 <<< ((flagBits c &&& 0xC) >>> 2) = c.csize ∧
    4 <<< ((flagBits c &&& 0x30) >>> 4) = c.psize ∧ (flagBits c &&& 0x40 ≠ 0 ↔ c.param.isSome) ∧
    decide (flagBits c &&& 0x80 ≠ 0) = c.msb := by
  have mem : ∀ {x : Nat}, IsSize x → x ∈ [4, 8, 16, 32] := by
    intro x hx
    rcases hx with rfl | rfl | rfl | rfl <;> simp
  have := flags_table c.isize (mem h.isize) c.csize (mem h.csize) c.psize (mem h.psize) c.msb c.param.isSome
  obtain ⟨out, isize, psize, csize, msb, gt, param⟩ := c
  cases param <;> exact this

theorem emits_payload {c : Compact} (h : Valid c) :
    Emits (put32 c.groupingType ;; (match c.param with | some v => put32 v | none => W.skip) ;;
      put32 c.out.patterns.length ;;
      W.each (fun e => pack c.psize false e.1 ;; pack c.csize (c.psize = 4) e.2) c.out.patterns ;;
      packIndices c.isize 0 c.out.descs) (payload c) := by
  unfold payload
  refine (emits_put32 _).seq (Emits.seq ?_ ((emits_put32 _).seq ((Emits.each _ ?_).seq (emits_fields h.isize _ h.descs))))
  · cases c.param with
    | none => exact emits_skip
    | some v => exact emits_put32 v
  · intro e he
    have := h.entries e he
    exact emits_entry h.psize h.csize h.aligned this.2.2.1 this.2.2.2

theorem parse_front (junk : Nat → Nat) {c : Compact} {version : Nat} (h : Valid c) (hv : version < 256) (rest : Bytes) (hd : Hdr) (k0 : Nat) :
    ∃ k, parseBody junk hd ⟨be 1 version ++ be 3 (flagBits c) ++ payload c ++ rest, k0⟩ =
      (fillAll c.isize c.msb c.out.patterns 0 0
        (Sbgp.ensureSize junk { Sbgp.create false with count := (c.out.patterns.map (·.2)).sum, msb := c.msb }
          (4 * (c.out.patterns.map (·.2)).sum)).cells none >>= fun cells =>
        pure ((version, flagBits c), c.groupingType, c.param,
          { Sbgp.ensureSize junk { Sbgp.create false with count := (c.out.patterns.map (·.2)).sum, msb := c.msb }
              (4 * (c.out.patterns.map (·.2)).sum) with cells := cells }) : P _)
        ⟨fields c.isize c.out.descs ++ rest, k⟩ ∧
      k + (fields c.isize c.out.descs).length = k0 + 4 + (payload c).length := by
  obtain ⟨_, fl, f1, f2, f3, f4, f5⟩ := flags_ok h
  have hn := h.size.2.2
  have hfew := h.few
  have hal := h.aligned
  let front := be 1 version ++ be 3 (flagBits c) ++ (be 4 c.groupingType ++
    ((match c.param with | some v => be 4 v | none => []) ++
      (be 4 c.out.patterns.length ++ c.out.patterns.flatMap (entryBytes c.psize c.csize))))
  have hbytes : be 1 version ++ be 3 (flagBits c) ++ payload c ++ rest =
      front ++ (fields c.isize c.out.descs ++ rest) := by
    simp only [front, payload, List.append_assoc]
  have hparam : Parses (if flagBits c &&& 0x40 ≠ 0 then do let v ← get32; pure (some v) else pure none)
      (match c.param with | some v => be 4 v | none => []) c.param := by
    cases hp : c.param with
    | none =>
      rw [if_neg (by rw [f4, hp]; simp)]
      exact parses_pure _
    | some v =>
      rw [if_pos (f4.mpr (by rw [hp]; rfl))]
      exact (parses_get32' (h.param v hp)).bind_nil (parses_pure _)
  have s1 : (c.out.patterns.map (·.2)).sum % 4294967296 = (c.out.patterns.map (·.2)).sum := by omega
  have s2 : (c.out.patterns.map (·.2)).sum * 4 % 4294967296 = 4 * (c.out.patterns.map (·.2)).sum := by omega
  refine ⟨k0 + front.length, ?_, ?_⟩
  · rw [hbytes]
    unfold parseBody
    simp only [front, List.append_assoc]
    have v1 := parses_versionFlags hv (show flagBits c < 16777216 by omega)
    have v2 := parses_get32' h.groupingType
    have v4 := parses_get32' (show c.out.patterns.length < 4294967296 by omega)
    have v5 := parses_entries h.psize h.csize h.aligned c.out.patterns fun e he => (h.entries e he).2.2
    rw [P.bind_apply, ← List.append_assoc (be 1 version), v1]
    simp only [f1, f2, f3, f5]
    rw [if_neg (by omega), P.bind_apply, v2]
    simp only
    rw [P.bind_apply, hparam]
    simp only
    rw [P.bind_apply, v4]
    simp only
    rw [P.bind_apply, v5]
    simp only [s1, s2, List.length_append, Nat.add_assoc]
  · simp only [front, payload, List.length_append, be_length]
    omega

theorem ensured_empty (junk : Nat → Nat) (t : Sbgp.Sbgp) (ha : t.alloc = 0) (hc : t.cells = []) (N : Nat)
    (h : N < 33554432) :
    N ≤ (Sbgp.ensureSize junk t (4 * N)).cells.length ∧
    (Sbgp.ensureSize junk t (4 * N)).alloc = 4 * (Sbgp.ensureSize junk t (4 * N)).cells.length ∧
    (Sbgp.ensureSize junk t (4 * N)).count = t.count := by
  obtain ⟨count, alloc, cells, sc, msb, frag⟩ := t
  simp only at ha hc
  subst ha hc
  by_cases h0 : 4 * N > 0
  · have e : Sbgp.ensureSize junk ⟨count, 0, [], sc, msb, frag⟩ (4 * N) =
        ⟨count, max 8192 (4 * N), Mem.realloc junk [] (max 8192 (4 * N) / 4), sc, msb, frag⟩ := by
      unfold Sbgp.ensureSize
      rw [if_pos h0]
      simp only [Nat.zero_add, show (8192 : Nat) % 4294967296 = 8192 from by decide]
    rw [e]
    have := Mem.realloc_length junk ([] : List Nat) (k := max 8192 (4 * N) / 4) (by simp)
    refine ⟨?_, ?_, rfl⟩
    · show N ≤ (Mem.realloc junk [] (max 8192 (4 * N) / 4)).length
      omega
    · show max 8192 (4 * N) = 4 * (Mem.realloc junk [] (max 8192 (4 * N) / 4)).length
      omega
  · have e : Sbgp.ensureSize junk ⟨count, 0, [], sc, msb, frag⟩ (4 * N) = ⟨count, 0, [], sc, msb, frag⟩ := by
      unfold Sbgp.ensureSize
      rw [if_neg h0]
    rw [e]
    exact ⟨by omega, rfl, rfl⟩

theorem ensured (junk : Nat → Nat) (c : Compact) (h : (c.out.patterns.map (·.2)).sum < 33554432) :
    (c.out.patterns.map (·.2)).sum ≤
      (Sbgp.ensureSize junk { Sbgp.create false with count := (c.out.patterns.map (·.2)).sum, msb := c.msb }
        (4 * (c.out.patterns.map (·.2)).sum)).cells.length ∧
    (Sbgp.ensureSize junk { Sbgp.create false with count := (c.out.patterns.map (·.2)).sum, msb := c.msb }
        (4 * (c.out.patterns.map (·.2)).sum)).alloc =
      4 * (Sbgp.ensureSize junk { Sbgp.create false with count := (c.out.patterns.map (·.2)).sum, msb := c.msb }
        (4 * (c.out.patterns.map (·.2)).sum)).cells.length ∧
    (Sbgp.ensureSize junk { Sbgp.create false with count := (c.out.patterns.map (·.2)).sum, msb := c.msb }
        (4 * (c.out.patterns.map (·.2)).sum)).count = (c.out.patterns.map (·.2)).sum :=
  ensured_empty junk _ rfl rfl _ h

/-- Full statement, refuted by `c48_forty_patterns`: the same without the bound on the number of
patterns. Every consistent compact form with at most 34 patterns is written as laid out above, and
parsing that gives an atom that reports for every sample the group the compact form stands for. -/
theorem c48_round_trip_partial (junk : Nat → Nat) (version : Nat) (c : Compact) (hv : version < 256) (h : Valid c)
    (h34 : c.out.patterns.length ≤ 34) :
    ∃ t, BoxRoundTrip (calcSize c) (serialize version (flagBits c) c) (parseBody junk)
        ((version, flagBits c), c.groupingType, c.param, t) (layout version c) ∧
      flagsOf c = some (flagBits c) ∧
      ∀ n, Sbgp.getMap t (n + 1) =
        .ok ((expandCompact c.out.patterns (c.out.descs.map (decIndex c.msb c.isize))).getD n 0) := by
  obtain ⟨en1, en2, en3⟩ := ensured junk c h.few
  obtain ⟨z1, z2, _⟩ := h.size
  generalize hE : Sbgp.ensureSize junk { Sbgp.create false with count := (c.out.patterns.map (·.2)).sum, msb := c.msb }
        (4 * (c.out.patterns.map (·.2)).sum) = E at *
  let C0 := expandCompact c.out.patterns (c.out.descs.map (decIndex c.msb c.isize)) ++
    E.cells.drop (c.out.patterns.map (·.2)).sum
  have hsame : ∀ rest k, ∃ k', fillAll c.isize c.msb c.out.patterns 0 0 E.cells none
        ⟨fields c.isize c.out.descs ++ rest, k⟩ = .ok (C0, ⟨rest, k'⟩) ∧
        k' + rest.length = k + (fields c.isize c.out.descs ++ rest).length := by
    intro rest k
    have := (fillAll_spec h.isize (msb := c.msb) (more := rest) c.out.patterns c.out.descs [] 0 E.cells none
      (fields c.isize c.out.descs ++ rest) k (fun e he => ⟨(h.entries e he).1, (h.entries e he).2.1⟩) h.total h.descs
      en1 (Or.inl ⟨rfl, rfl⟩)).1 (by omega)
    simpa using this
  have hexp : (expandCompact c.out.patterns (c.out.descs.map (decIndex c.msb c.isize))).length =
      (c.out.patterns.map (·.2)).sum := by
    exact expandCompact_length _ _
  have hrep : Sbgp.Rep { E with cells := C0 } (expandCompact c.out.patterns (c.out.descs.map (decIndex c.msb c.isize))) := by
    refine ⟨?_, ?_, ?_⟩
    · show E.count = _; rw [hexp, en3]
    · show E.alloc = 4 * C0.length
      rw [en2]
      simp only [C0, List.length_append, List.length_drop, hexp]
      omega
    · show C0.take _ = _
      exact List.take_left' rfl
  refine ⟨{ E with cells := C0 }, ?_, (flags_ok h).1, hrep.get⟩
  refine BoxRoundTrip.ofFull ?_ ?_ z1 z2 (by decide) (by decide)
  · have := (emits_payload h).thenAssert
    simp only [W.seq_assoc] at this
    exact this
  · intro rest
    obtain ⟨k, p1, p2⟩ := parse_front junk h hv rest ⟨calcSize c, typeCsgp, [], 0, 8⟩ 8
    rw [hE] at p1
    obtain ⟨k', q1, q2⟩ := hsame rest k
    rw [show parseBody junk ⟨calcSize c, typeCsgp, [], 0, 8⟩
      ⟨be 1 version ++ be 3 (flagBits c) ++ payload c ++ rest, 8⟩ = _ from p1, P.bind_apply, q1]
    simp only [P.pure_apply]
    congr 3
    simp only [List.length_append, be_length] at q2 p2 ⊢
    omega

/-- A real defect: any consistent box with 40 patterns or more makes the parser write behind its
message buffer. -/
theorem c48_forty_patterns (junk : Nat → Nat) (version : Nat) (c : Compact) (hv : version < 256) (h : Valid c)
    (h40 : 40 ≤ c.out.patterns.length) (rest : Bytes) :
    parseAtom (parseBody junk) (layout version c ++ rest) = .ub := by
  obtain ⟨en1, _, _⟩ := ensured junk c h.few
  obtain ⟨z1, z2, _⟩ := h.size
  generalize hE : Sbgp.ensureSize junk { Sbgp.create false with count := (c.out.patterns.map (·.2)).sum, msb := c.msb }
        (4 * (c.out.patterns.map (·.2)).sum) = E at *
  obtain ⟨k, p1, _⟩ := parse_front junk h hv rest ⟨calcSize c, fcc 'c' 's' 'g' 'p', [], 0, 8⟩ 8
  have hub := (fillAll_spec h.isize (msb := c.msb) (more := rest) c.out.patterns c.out.descs [] 0 E.cells none
      (fields c.isize c.out.descs ++ rest) k (fun e he => ⟨(h.entries e he).1, (h.entries e he).2.1⟩) h.total h.descs
      en1 (Or.inl ⟨rfl, rfl⟩)).2 (by omega) (by omega)
  rw [hE, P.bind_apply, show fillAll c.isize c.msb c.out.patterns 0 0 E.cells none
    ⟨fields c.isize c.out.descs ++ rest, k⟩ = .ub from hub] at p1
  have e : layout version c ++ rest = (be 4 (calcSize c) ++ be 4 (fcc 'c' 's' 'g' 'p')) ++
      (be 1 version ++ be 3 (flagBits c) ++ payload c ++ rest) := by
    unfold layout fullBox box
    rw [z1]
    simp only [List.append_assoc, List.length_append, be_length]
    rw [show 8 + (1 + (3 + (payload c).length)) = 12 + (payload c).length by omega]
  unfold parseAtom
  rw [e, parseHeader_small z2 (by omega) (by decide) (by decide) _ (by simp; omega)]
  simp only [p1]

/-- This and C23 fit together: what is compacted is consistent, so it can be written and — with at most
34 patterns — parsed again, giving every sample the group it had. -/
theorem c48_compacted_partial (junk : Nat → Nat) (version : Nat) (hv : version < 256) (cells L : List Nat)
    (frag msb : Bool) (size gt : Nat) (param : Option Nat) (hgt : gt < 4294967296)
    (hparam : ∀ v, param = some v → v < 4294967296)
    (hcells : cells.take L.length = L) (h0 : L ≠ []) (hn : L.length < 33554432)
    (hfit : ∀ g ∈ L, Fits frag msb size g) :
    ∃ o p c, compact cells L.length frag msb size = .ok (cells, o, p, c) ∧
      (o.patterns.length ≤ 34 →
        ∃ t, BoxRoundTrip (calcSize ⟨o, size, p, c, msb, gt, param⟩)
          (serialize version (flagBits ⟨o, size, p, c, msb, gt, param⟩) ⟨o, size, p, c, msb, gt, param⟩)
          (parseBody junk) ((version, flagBits ⟨o, size, p, c, msb, gt, param⟩), gt, param, t)
          (layout version ⟨o, size, p, c, msb, gt, param⟩) ∧
        ∀ n, Sbgp.getMap t (n + 1) = .ok (L.getD n 0)) := by
  obtain ⟨o, p, c, q1, q2, q3, q4, q5, q6, q7, q8, q9⟩ :=
    c23_compact_lossless cells L frag msb size hcells h0 hn hfit
  have hsz : IsSize size := by
    obtain ⟨g, hg⟩ := List.exists_mem_of_ne_nil L h0
    exact (hfit g hg).1
  refine ⟨o, p, c, q1, fun h34 => ?_⟩
  obtain ⟨t, t1, _, t3⟩ := c48_round_trip_partial junk version ⟨o, size, p, c, msb, gt, param⟩ hv
    ⟨hsz, q7, q8, q9, q3, q6, q4, by rw [q5] at hn; exact hn, hgt, hparam⟩ h34
  refine ⟨t, t1, ?_⟩
  rw [← q2]
  exact t3

/-- Three patterns: `c48_round_trip_partial` applies. -/
example : Valid ⟨⟨[(2, 5), (1, 6), (3, 3)], [1, 2, 3, 4, 5, 9]⟩, 4, 4, 4, false, 0x726F6C6C, some 7⟩ where
  isize := Or.inl rfl
  psize := Or.inl rfl
  csize := Or.inl rfl
  aligned := by decide
  entries := by decide
  descs := by decide
  total := rfl
  few := by decide
  groupingType := by decide
  param := by intro v h; cases h; decide

/-- Forty patterns: `c48_forty_patterns` applies. -/
example : Valid ⟨⟨List.replicate 40 (1, 1), List.replicate 40 1⟩, 4, 4, 4, false, 0x726F6C6C, none⟩ where
  isize := Or.inl rfl
  psize := Or.inl rfl
  csize := Or.inl rfl
  aligned := by decide
  entries := by decide
  descs := by decide
  total := rfl
  few := by decide
  groupingType := by decide
  param := by intro v h; cases h

end Verif.Csgp
