import Verif.Model.BitReader
import Verif.Spec.Bits

/-!
# Lemmas about reading bits
-/

namespace Verif.Bits

@[simp] theorem u_length (n v : Nat) : (u n v).length = n := by
  induction n with
  | zero => rfl
  | succ n ih => simp [u, ih]

theorem value_foldl (l : List Bool) : ∀ a, l.foldl (fun a b => 2 * a + b.toNat) a = a * 2 ^ l.length + value l := by
  unfold value
  induction l with
  | nil => intro a; simp
  | cons b l ih =>
    intro a
    simp only [List.foldl_cons, List.length_cons]
    rw [ih, ih (2 * 0 + b.toNat), Nat.pow_succ]
    rw [Nat.mul_zero, Nat.zero_add, Nat.add_mul]
    have : 2 * a * 2 ^ l.length = a * (2 ^ l.length * 2) := by rw [Nat.mul_comm 2 a, Nat.mul_assoc, Nat.mul_comm 2]
    omega

theorem value_append (l m : List Bool) : value (l ++ m) = value l * 2 ^ m.length + value m := by
  show (l ++ m).foldl _ 0 = _
  rw [List.foldl_append, value_foldl]
  rfl

theorem value_cons (b : Bool) (l : List Bool) : value (b :: l) = b.toNat * 2 ^ l.length + value l := by
  have := value_append [b] l
  simpa [value] using this

theorem value_lt (l : List Bool) : value l < 2 ^ l.length := by
  induction l with
  | nil => decide
  | cons b l ih =>
    rw [value_cons, List.length_cons, Nat.pow_succ]
    cases b <;> simp <;> omega

theorem value_u (n v : Nat) : value (u n v) = v % 2 ^ n := by
  induction n with
  | zero => simp [u, value, Nat.mod_one]
  | succ n ih =>
    rw [u, value_cons, u_length, ih, Nat.pow_succ, Nat.mod_mul]
    rcases Nat.mod_two_eq_zero_or_one (v / 2 ^ n) with h | h <;> simp [h] <;> omega

theorem byte_take : ∀ m < 9, ∀ c < 256, c >>> (8 - m) = value ((u 8 c).take m) := by decide +kernel

theorem byte_drop : ∀ m < 9, ∀ c < 256, u 8 ((c <<< m) &&& 0xff) = (u 8 c).drop m ++ List.replicate m false := by decide +kernel

/-- The reader stands `k` bits after the start and `rest` follows. -/
structure Rep (b : BB) (k : Nat) (rest : List Bool) : Prop where
  bits : ∃ R, b.mem.drop (b.pos + 1) = (if b.prevent then escape b.emu R else R) ∧ rest = (u 8 b.cbyte).take b.cur ++ bitsOf R
  cur : b.cur ≤ 8
  cbyte : b.cbyte < 256
  left : 56 * b.mem.length + 8 * (b.mem.length - b.pos - 1) + b.cur ≤ b.left
  emu : b.emu ≤ 2
  pos : (k + rest.length) % 8 = 0
  mem : b.mem ≠ []

theorem bitsOf_length (R : Bytes) : (bitsOf R).length = 8 * R.length := by
  induction R with
  | nil => rfl
  | cons c R ih => simp only [bitsOf, List.flatMap_cons, List.length_append, u_length, List.length_cons] at ih ⊢; omega

theorem escape_length (z : Nat) (R : Bytes) : R.length ≤ (escape z R).length := by
  induction R generalizing z with
  | nil => simp
  | cons c R ih =>
    rw [escape]
    have := ih (if c.toNat = 0 then 1 else 0)
    have := ih (if c.toNat = 0 then z + 1 else 0)
    split <;> simp only [List.length_cons] <;> omega

theorem rep_init (prevent : Bool) {mem R : Bytes} (hlen : mem.length < 33554432) (hR : R ≠ [])
    (hm : mem = if prevent then escape 0 R else R) :
    ∃ b, init prevent mem = .ok b ∧ Rep b 0 (bitsOf R) := by
  match R, hR with
  | c :: R, _ =>
    have hm' : mem = c :: (if prevent then escape (if c.toNat = 0 then 1 else 0) R else R) := by
      rw [hm]
      cases prevent
      · rfl
      · simp only [if_true, escape]
        rw [if_neg (by omega)]
    have hw : w32(8 * mem.length) = 8 * mem.length := by omega
    refine ⟨⟨mem, 0, c.toNat, 8, w32(8 * mem.length) * 8, prevent, if c.toNat = 0 then 1 else 0⟩, ?_, ?_⟩
    · unfold init
      rw [if_neg (by rw [hw]; omega)]
      have : mem[0]? = some c := by rw [hm']; rfl
      rw [this]
    · refine ⟨⟨R, ?_, ?_⟩, Nat.le_refl 8, ?_, ?_, ?_, ?_, by rw [hm']; simp⟩
      · rw [hm']
        simp only [Nat.zero_add, List.drop_one, List.tail_cons]
      · show _ = (u 8 c.toNat).take 8 ++ bitsOf R
        rw [List.take_of_length_le (by simp)]
        rfl
      · exact c.toNat_lt
      · show 56 * mem.length + 8 * (mem.length - 0 - 1) + 8 ≤ w32(8 * mem.length) * 8
        have : 0 < mem.length := by rw [hm']; simp
        omega
      · show (if c.toNat = 0 then 1 else 0) ≤ 2
        split <;> decide
      · rw [bitsOf_length]; omega

theorem get_at {l : Bytes} {n : Nat} {c : UInt8} {t : Bytes} (h : l.drop n = c :: t) :
    l[n]? = some c ∧ l.drop (n + 1) = t ∧ n < l.length := by
  have h1 : l[n]? = some c := by
    have := congrArg List.head? h
    simpa [List.head?_drop] using this
  refine ⟨h1, ?_, (List.getElem?_eq_some_iff.1 h1).1⟩
  rw [← List.tail_drop, h]; rfl

/-- Loading the next byte. -/
theorem rep_load {b : BB} {k : Nat} {rest : List Bool} (r : Rep b k rest) (h0 : b.cur = 0) {n : Nat} (hn : n ≤ rest.length) (h1 : 1 ≤ n) :
    ∃ b', load n b = .ok b' ∧ Rep b' k rest ∧ 0 < b'.cur ∧ n ≤ b'.left := by
  obtain ⟨R, hR, hrest⟩ := r.bits
  have hleft := r.left
  have hpos := r.pos
  rw [h0, List.take_zero, List.nil_append] at hrest
  subst hrest
  rw [bitsOf_length] at hn
  match R with
  | [] => simp at hn; omega
  | c :: R =>
    have hc : c.toNat < 256 := c.toNat_lt
    have hb : bitsOf (c :: R) = (u 8 c.toNat).take 8 ++ bitsOf R := by
      rw [List.take_of_length_le (by simp)]; rfl
    rw [List.length_cons] at hn
    unfold load
    cases hp : b.prevent with
    | false =>
      rw [hp] at hR
      simp only [Bool.false_eq_true, if_false] at hR
      obtain ⟨g1, g2, g3⟩ := get_at hR
      rw [g1]
      have hl := congrArg List.length g2
      rw [List.length_drop] at hl
      refine ⟨_, rfl, ⟨⟨R, ?_, hb⟩, Nat.le_refl 8, hc, ?_, r.emu, hpos, r.mem⟩, Nat.zero_lt_succ 7, ?_⟩
      · simp only [hp, Bool.false_eq_true, if_false]; exact g2
      · show 56 * b.mem.length + 8 * (b.mem.length - (b.pos + 1) - 1) + 8 ≤ b.left; omega
      · show n ≤ b.left; omega
    | true =>
      rw [hp] at hR
      simp only [if_true] at hR
      rw [escape] at hR
      by_cases he : b.emu = 2 ∧ c.toNat ≤ 3
      · rw [if_pos he] at hR
        obtain ⟨g1, g2, g3⟩ := get_at hR
        obtain ⟨g4, g5, g6⟩ := get_at g2
        have hl := congrArg List.length g5
        rw [List.length_drop] at hl
        have := escape_length (if c.toNat = 0 then 1 else 0) R
        rw [g1]
        simp only [if_true]
        rw [if_pos ⟨by omega, by decide⟩, g4]
        simp only
        rw [if_neg (show ¬ b.left < 8 by omega), if_neg (by omega)]
        refine ⟨_, rfl, ⟨⟨R, ?_, hb⟩, Nat.le_refl 8, hc, ?_, ?_, hpos, r.mem⟩, Nat.zero_lt_succ 7, ?_⟩
        · simp only [hp, if_true]; exact g5
        · show 56 * b.mem.length + 8 * (b.mem.length - (b.pos + 2) - 1) + 8 ≤ b.left - 8; omega
        · show (if c.toNat = 0 then 1 else 0) ≤ 2; split <;> decide
        · show n ≤ b.left - 8; omega
      · rw [if_neg he] at hR
        obtain ⟨g1, g2, g3⟩ := get_at hR
        have hl := congrArg List.length g2
        rw [List.length_drop] at hl
        have := escape_length (if c.toNat = 0 then b.emu + 1 else 0) R
        have hemu := r.emu
        rw [g1]
        simp only [if_true]
        rw [if_neg (by omega)]
        refine ⟨_, rfl, ⟨⟨R, ?_, hb⟩, Nat.le_refl 8, hc, ?_, ?_, hpos, r.mem⟩, Nat.zero_lt_succ 7, ?_⟩
        · simp only [hp, if_true]
          rw [Nat.mod_eq_of_lt (by omega)]; exact g2
        · show 56 * b.mem.length + 8 * (b.mem.length - (b.pos + 1) - 1) + 8 ≤ b.left; omega
        · show (if c.toNat = 0 then w8(b.emu + 1) else 0) ≤ 2
          split
          · omega
          · decide
        · show n ≤ b.left; omega

/-- `p` reads `l`, standing at bit `k`, with the result `v`. -/
def ReadsAt {α : Type} (p : B α) (k : Nat) (l : List Bool) (v : α) : Prop :=
  ∀ b rest, Rep b k (l ++ rest) → ∃ b', p b = .ok (v, b') ∧ Rep b' (k + l.length) rest

def Reads {α : Type} (p : B α) (l : List Bool) (v : α) : Prop := ∀ k, ReadsAt p k l v

theorem readsAt_get {n : Nat} : ∀ {l : List Bool} {fuel : Nat}, l.length = n → 1 ≤ n → n ≤ 32 → n ≤ fuel → ∀ k,
    ReadsAt (getF fuel n) k l (value l) := by
  induction n using Nat.strongRecOn with
  | ind n ih =>
    intro l fuel hl h1 h32 hf k b rest r
    obtain ⟨fuel, rfl⟩ : ∃ f, fuel = f + 1 := ⟨fuel - 1, by omega⟩
    · have hleft : n ≤ b.left := by
        have h2 := r.left
        obtain ⟨R, hR, hrest⟩ := r.bits
        have h3 := congrArg List.length hrest
        have h4 := congrArg List.length hR
        have h5 := escape_length b.emu R
        rw [List.length_append, List.length_append, bitsOf_length, List.length_take, u_length] at h3
        rw [List.length_drop] at h4
        have : R.length ≤ b.mem.length - (b.pos + 1) := by
          rw [h4]; split <;> omega
        omega
      obtain ⟨b1, e1, r1, c1, l1⟩ : ∃ b', (if b.cur = 0 then load n b else .ok b) = .ok b' ∧ Rep b' k (l ++ rest) ∧ 0 < b'.cur ∧ n ≤ b'.left := by
        by_cases h0 : b.cur = 0
        · rw [if_pos h0]
          exact rep_load r h0 (by rw [List.length_append]; omega) h1
        · rw [if_neg h0]; exact ⟨b, rfl, r, by omega, hleft⟩
      have e : getF (fuel + 1) n b = (if n > b.left then .err .eof else
          (if b.cur = 0 then load n b else .ok b).bind fun b =>
          let my := if n > b.cur then b.cur else n
          let v := b.cbyte >>> (8 - my)
          let b' : BB := { b with left := b.left - my, cur := b.cur - my, cbyte := (b.cbyte <<< my) &&& 0xff }
          if n - my > 0 then
            if n - my ≥ 32 then .ub else
            (getF fuel (n - my) b').bind fun r => .ok (w32(v <<< (n - my)) ||| r.1, r.2)
          else .ok (v, b')) := rfl
      rw [e, if_neg (by omega), e1]
      simp only [Res.bind]
      generalize hmy : (if n > b1.cur then b1.cur else n) = my
      have hm1 : my ≤ b1.cur := by rw [← hmy]; split <;> omega
      have hm2 : my ≤ n := by rw [← hmy]; split <;> omega
      have hm3 : 0 < my := by rw [← hmy]; split <;> omega
      have hm4 : my < n → my = b1.cur := by rw [← hmy]; split <;> omega
      have hcur := r1.cur
      have hcb := r1.cbyte
      have hleft1 := r1.left
      have hpos1 := r1.pos
      obtain ⟨R, hR, hrest⟩ := r1.bits
      -- the bits taken
      have htake : (u 8 b1.cbyte).take my = l.take my := by
        have h := congrArg (List.take my) hrest
        rw [List.take_append_of_le_length (by omega), List.take_append_of_le_length (by simp; omega), List.take_take,
          Nat.min_eq_left hm1] at h
        exact h.symm
      have hv : b1.cbyte >>> (8 - my) = value (l.take my) := by
        rw [byte_take my (by omega) _ hcb, htake]
      have r2 : Rep { b1 with left := b1.left - my, cur := b1.cur - my, cbyte := (b1.cbyte <<< my) &&& 0xff } (k + my) (l.drop my ++ rest) := by
        refine ⟨⟨R, hR, ?_⟩, ?_, ?_, ?_, r1.emu, ?_, r1.mem⟩
        · show _ = (u 8 ((b1.cbyte <<< my) &&& 0xff)).take (b1.cur - my) ++ bitsOf R
          have h := congrArg (List.drop my) hrest
          rw [List.drop_append_of_le_length (by omega), List.drop_append_of_le_length (by simp; omega)] at h
          rw [h, byte_drop my (by omega) _ hcb, List.take_append_of_le_length (by simp; omega), List.drop_take]
        · show b1.cur - my ≤ 8; omega
        · show (b1.cbyte <<< my) &&& 0xff < 256
          exact Nat.lt_of_le_of_lt Nat.and_le_right (by decide)
        · show 56 * b1.mem.length + 8 * (b1.mem.length - b1.pos - 1) + (b1.cur - my) ≤ b1.left - my
          omega
        · rw [List.length_append, List.length_drop]
          rw [List.length_append] at hpos1
          rw [← hpos1]
          congr 1
          omega
      by_cases hmore : n - my > 0
      · rw [if_pos hmore, if_neg (by omega)]
        obtain ⟨b3, e3, r3⟩ := ih (n - my) (by omega) (l := l.drop my) (fuel := fuel) (by simp; omega) (by omega) (by omega) (by omega)
          (k + my) _ rest r2
        rw [e3]
        refine ⟨b3, ?_, ?_⟩
        · simp only
          rw [hv]
          have hlt := value_lt (l.drop my)
          have hlt1 := value_lt (l.take my)
          rw [List.length_drop, hl] at hlt
          rw [List.length_take, Nat.min_eq_left (by omega)] at hlt1
          have hsh : value (l.take my) <<< (n - my) < 4294967296 := by
            rw [Nat.shiftLeft_eq]
            calc value (l.take my) * 2 ^ (n - my) < 2 ^ my * 2 ^ (n - my) :=
                  Nat.mul_lt_mul_of_pos_right hlt1 (Nat.two_pow_pos _)
              _ = 2 ^ n := by rw [← Nat.pow_add]; congr 1; omega
              _ ≤ 2 ^ 32 := Nat.pow_le_pow_right (by decide) h32
          rw [Nat.mod_eq_of_lt hsh, ← Nat.shiftLeft_add_eq_or_of_lt hlt, Nat.shiftLeft_eq]
          have hva := value_append (l.take my) (l.drop my)
          rw [List.take_append_drop, List.length_drop, hl] at hva
          rw [hva]
        · have : k + my + (l.drop my).length = k + l.length := by rw [List.length_drop]; omega
          rw [this] at r3; exact r3
      · have hmn : my = n := by omega
        subst hmn
        rw [if_neg hmore, hv, List.take_of_length_le (by omega)]
        refine ⟨_, rfl, ?_⟩
        rw [List.drop_of_length_le (by omega), List.nil_append] at r2
        rw [hl]; exact r2

/-- At the end, a read goes past the end. -/
theorem get_end {b : BB} {k : Nat} (r : Rep b k []) {n : Nat} (h1 : 1 ≤ n) (hn : n ≤ 56) : get n b = .ub := by
  obtain ⟨R, hR, hrest⟩ := r.bits
  have hl := congrArg List.length hrest
  rw [List.length_append, bitsOf_length, List.length_take, u_length, List.length_nil] at hl
  have hcur := r.cur
  have h0 : b.cur = 0 := by omega
  have hR0 : R = [] := List.length_eq_zero_iff.1 (by omega)
  subst hR0
  have hd : b.mem.drop (b.pos + 1) = [] := by rw [hR]; cases b.prevent <;> rfl
  have hlen : b.mem.length ≤ b.pos + 1 := by
    have := congrArg List.length hd
    rw [List.length_drop, List.length_nil] at this; omega
  have hm : 0 < b.mem.length := by
    rcases Nat.eq_zero_or_pos b.mem.length with h | h
    · exact absurd (List.length_eq_zero_iff.1 h) r.mem
    · exact h
  have hleft := r.left
  show (if n > b.left then _ else _) = _
  rw [if_neg (by omega), if_pos h0]
  unfold load
  rw [List.getElem?_eq_none_iff.2 (by omega)]
  rfl

/-! ## Combinators -/

theorem ReadsAt.bind {α β : Type} {p : B α} {f : α → B β} {k : Nat} {l m : List Bool} {a : α} {v : β}
    (h : ReadsAt p k l a) (hf : ReadsAt (f a) (k + l.length) m v) : ReadsAt (p >>= f) k (l ++ m) v := by
  intro b rest r
  rw [List.append_assoc] at r
  obtain ⟨b1, e1, r1⟩ := h b _ r
  obtain ⟨b2, e2, r2⟩ := hf b1 rest r1
  refine ⟨b2, ?_, ?_⟩
  · show (p b).bind _ = _
    rw [e1]; exact e2
  · rw [List.length_append, ← Nat.add_assoc]; exact r2

theorem Reads.bind {α β : Type} {p : B α} {f : α → B β} {l m : List Bool} {a : α} {v : β}
    (h : Reads p l a) (hf : Reads (f a) m v) : Reads (p >>= f) (l ++ m) v := fun k => (h k).bind (hf _)

theorem reads_pure {α : Type} (v : α) : Reads (pure v : B α) [] v := by
  intro k b rest r
  exact ⟨b, rfl, r⟩

theorem Reads.bind_nil {α β : Type} {p : B α} {f : α → B β} {l : List Bool} {a : α} {v : β}
    (h : Reads p l a) (hf : Reads (f a) [] v) : Reads (p >>= f) l v := by
  have := h.bind hf
  rwa [List.append_nil] at this

theorem ReadsAt.bind_nil {α β : Type} {p : B α} {f : α → B β} {k : Nat} {l : List Bool} {a : α} {v : β}
    (h : ReadsAt p k l a) (hf : ReadsAt (f a) (k + l.length) [] v) : ReadsAt (p >>= f) k l v := by
  have := h.bind hf
  rwa [List.append_nil] at this

theorem reads_get {n : Nat} {l : List Bool} (hl : l.length = n) (h1 : 1 ≤ n) (h32 : n ≤ 32) : Reads (get n) l (value l) := by
  intro k
  exact readsAt_get hl h1 h32 (by omega) k

theorem reads_u {n v : Nat} (h1 : 1 ≤ n) (h32 : n ≤ 32) (hv : v < 2 ^ n) : Reads (get n) (u n v) v := by
  have := reads_get (u_length n v) h1 h32
  rwa [value_u, Nat.mod_eq_of_lt hv] at this

theorem reads_byte {v : Nat} (hv : v < 256) : Reads byte (u 8 v) v := by
  refine (reads_u (by decide) (by decide) hv).bind_nil ?_
  rw [Nat.mod_eq_of_lt hv]
  exact reads_pure _

theorem reads_flag (x : Bool) : Reads flag [x] x.toNat := by
  have h := reads_get (l := [x]) (n := 1) rfl (by decide) (by decide)
  refine h.bind_nil ?_
  have : w8(value [x]) = x.toNat := by cases x <;> rfl
  rw [this]
  exact reads_pure _

theorem reads_times {α β : Type} {p : B α} (xs : List β) (g : β → List Bool) (f : β → α) (h : ∀ x ∈ xs, Reads p (g x) (f x)) {n : Nat}
    (hn : xs.length = n) : Reads (times n p) (xs.flatMap g) (xs.map f) := by
  subst hn
  induction xs with
  | nil => exact reads_pure _
  | cons x xs ih =>
    exact (h x (by simp)).bind ((ih fun y hy => h y (by simp [hy])).bind_nil (reads_pure _))

/-! ## Exp-Golomb -/

theorem reads_zeros (z : Nat) : ∀ (fuel power nbits : Nat), z < fuel → ∀ k,
    ReadsAt (zerosF fuel power nbits) k (List.replicate z false ++ [true])
      (power * 2 ^ z % 4294967296, nbits + z) ∨ 4294967296 ≤ power := by
  induction z with
  | zero =>
    intro fuel power nbits hf k
    by_cases hp : 4294967296 ≤ power
    · exact .inr hp
    left
    match fuel, hf with
    | fuel + 1, _ =>
      have h := reads_get (l := [true]) (n := 1) rfl (by decide) (by decide)
      have h2 : Reads (zerosF (fuel + 1) power nbits) [true] (power, nbits) :=
        h.bind_nil (by simp only [value]; exact reads_pure _)
      have := h2 k
      rwa [Nat.pow_zero, Nat.mul_one, Nat.mod_eq_of_lt (by omega)]
  | succ z ih =>
    intro fuel power nbits hf k
    by_cases hp : 4294967296 ≤ power
    · exact .inr hp
    left
    match fuel, hf with
    | fuel + 1, hf =>
      have h := reads_get (l := [false]) (n := 1) rfl (by decide) (by decide)
      rcases ih fuel w32(power * 2) (nbits + 1) (by omega) (k + 1) with h2 | h2
      · have h3 : ReadsAt (zerosF (fuel + 1) power nbits) k ([false] ++ (List.replicate z false ++ [true])) _ :=
          (h k).bind h2
        rw [List.replicate_succ, List.cons_append]
        have e : power * 2 ^ (z + 1) % 4294967296 = w32(power * 2) * 2 ^ z % 4294967296 := by
          rw [Nat.mod_mul_mod, Nat.pow_succ, Nat.mul_assoc, Nat.mul_comm 2]
        rw [e, show nbits + (z + 1) = nbits + 1 + z by omega]
        exact h3
      · omega

theorem golomb_eq (v : Nat) :
    golomb v = List.replicate (Nat.log2 (v + 1)) false ++ [true] ++ u (Nat.log2 (v + 1)) (v + 1) := by
  have h1 : 2 ^ Nat.log2 (v + 1) ≤ v + 1 := Nat.log2_self_le (by omega)
  have h2 : v + 1 < 2 ^ (Nat.log2 (v + 1) + 1) := Nat.lt_log2_self
  have key : ∀ j, u (Nat.log2 (v + 1) + 1 + j) (v + 1) =
      List.replicate j false ++ ([true] ++ u (Nat.log2 (v + 1)) (v + 1)) := by
    intro j
    induction j with
    | zero =>
      show u (Nat.log2 (v + 1) + 1) (v + 1) = _
      rw [u]
      have : (v + 1) / 2 ^ Nat.log2 (v + 1) = 1 := by
        apply Nat.div_eq_of_lt_le <;> rw [Nat.pow_succ] at h2 <;> omega
      simp [this]
    | succ j ih =>
      show u (Nat.log2 (v + 1) + 1 + j + 1) (v + 1) = _
      rw [u, ih]
      have : (v + 1) / 2 ^ (Nat.log2 (v + 1) + 1 + j) = 0 := by
        apply Nat.div_eq_of_lt
        exact Nat.lt_of_lt_of_le h2 (Nat.pow_le_pow_right (by decide) (by omega))
      simp [this, List.replicate_succ]
  have := key (Nat.log2 (v + 1))
  unfold golomb
  rw [show 2 * Nat.log2 (v + 1) + 1 = Nat.log2 (v + 1) + 1 + Nat.log2 (v + 1) by omega, this, List.append_assoc]

theorem rep_left {b : BB} {k : Nat} {rest : List Bool} (r : Rep b k rest) : rest.length ≤ b.left := by
  have h2 := r.left
  obtain ⟨R, hR, hrest⟩ := r.bits
  have h3 := congrArg List.length hrest
  have h4 := congrArg List.length hR
  have h5 := escape_length b.emu R
  rw [List.length_append, bitsOf_length, List.length_take, u_length] at h3
  rw [List.length_drop] at h4
  have : R.length ≤ b.mem.length - (b.pos + 1) := by
    rw [h4]; split <;> omega
  omega

/-- A number below 2^32 - 1 is read as it was coded. -/
theorem reads_ue {v : Nat} (hv : v < 4294967295) : Reads ue (golomb v) v := by
  intro k b rest r
  have h1 : 2 ^ Nat.log2 (v + 1) ≤ v + 1 := Nat.log2_self_le (by omega)
  have h2 : v + 1 < 2 ^ (Nat.log2 (v + 1) + 1) := Nat.lt_log2_self
  have hz : Nat.log2 (v + 1) < 32 := (Nat.log2_lt (by omega)).2 (by omega)
  generalize hn : Nat.log2 (v + 1) = z at *
  have hg := golomb_eq v
  rw [hn] at hg
  rw [hg, List.append_assoc] at r
  have hlen := rep_left r
  simp only [List.length_append, List.length_replicate, List.length_singleton] at hlen
  rcases reads_zeros z (b.left + 1) 1 0 (by omega) k with hr | hr
  · obtain ⟨b1, e1, r1⟩ := hr b _ r
    have hp : 1 * 2 ^ z % 4294967296 = 2 ^ z := by
      rw [Nat.one_mul, Nat.mod_eq_of_lt]
      exact Nat.lt_of_lt_of_le (Nat.pow_lt_pow_right (by decide) hz) (by decide)
    have hpos : 0 < 2 ^ z := Nat.two_pow_pos z
    unfold ue
    rw [e1]
    simp only [Res.bind, Nat.zero_add, hp]
    by_cases h0 : z > 0
    · rw [if_pos h0]
      obtain ⟨b2, e2, r2⟩ := reads_get (u_length z (v + 1)) h0 (by omega) _ b1 rest r1
      rw [e2]
      refine ⟨b2, ?_, ?_⟩
      · simp only
        rw [value_u]
        have : (v + 1) % 2 ^ z = v + 1 - 2 ^ z := by
          rw [Nat.mod_eq_sub_mod h1, Nat.mod_eq_of_lt]
          rw [Nat.pow_succ] at h2; omega
        rw [this]
        unfold pred32
        rw [if_neg (by omega)]
        congr 2
        rw [Nat.mod_eq_of_lt (by omega)]
        omega
      · rw [hg]
        rw [List.length_append, ← Nat.add_assoc]
        exact r2
    · have hz0 : z = 0 := by omega
      subst hz0
      rw [if_neg h0]
      have hv0 : v = 0 := by simp at h2; omega
      subst hv0
      refine ⟨b1, rfl, ?_⟩
      rw [hg]
      simpa [u] using r1
  · omega

end Verif.Bits
