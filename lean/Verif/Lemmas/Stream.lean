import Verif.Spec.Stream
import Verif.Lemmas.Codec

/-! # A stream follows a place in the bytes -/

namespace Verif.Stream

/-- A stream `s` stands at the place `p` of `file` when `R s p`, and its primitives keep it so.
`Z` says that reading nothing is fine. -/
structure Sim {S : Type} (I : Impl S) (far : Err) (file : Bytes) (Z : Prop) (R : S → Nat → Prop) :
    Prop where
  le : ∀ {s p}, R s p → p ≤ file.length
  avail : ∀ {s p}, R s p → I.available s = file.length - p
  offset : ∀ {s p}, R s p → I.offset s = p
  data_ok : ∀ {s p n}, R s p → n < 2 ^ 32 → (n = 0 → Z) → p + n ≤ file.length →
    (I.data s n).1 = .ok (piece file p n) ∧ R (I.data s n).2 (p + n)
  data_no : ∀ {s p n}, R s p → n < 2 ^ 32 → file.length < p + n → I.data s n = (.err .ioErr, s)
  data_far : ∀ {s p n}, R s p → 2 ^ 32 ≤ n → I.data s n = (.err .notImplemented, s)
  skip_ok : ∀ {s p n}, R s p → p + n ≤ file.length →
    (I.skip s n).1 = .ok () ∧ R (I.skip s n).2 (p + n)
  skip_no : ∀ {s p n}, R s p → file.length < p + n →
    I.skip s n = (.err (if 2 ^ 32 ≤ n then far else .ioErr), s)
  rewind_ok : ∀ {s p n}, R s p → n ≤ p → (I.rewind s n).1 = .ok () ∧ R (I.rewind s n).2 (p - n)

theorem ok_bind' {α β : Type} (a : α) (f : α → Res β) : (Res.ok a).bind f = f a := rfl

theorem piece_length {file : Bytes} {p n : Nat} (h : p + n ≤ file.length) :
    (piece file p n).length = n := by
  simp only [piece, List.length_take, List.length_drop]; omega

theorem piece_add {file : Bytes} {p m n : Nat} :
    piece file p (m + n) = piece file p m ++ piece file (p + m) n := by
  simp only [piece]
  rw [List.take_add, List.drop_drop]

theorem length_one {l : Bytes} (h : l.length = 1) : ∃ b, l = [b] := by
  match l, h with
  | [b], _ => exact ⟨b, rfl⟩

section
variable {S : Type} {I : Impl S} {far : Err} {file : Bytes} {Z : Prop} {R : S → Nat → Prop}

theorem Sim.read8_ok (h : Sim I far file Z R) {s : S} {p : Nat} (hr : R s p)
    (hp : p + 1 ≤ file.length) :
    (read8 I s).1 = .ok (unbe (piece file p 1)) ∧ R (read8 I s).2 (p + 1) := by
  obtain ⟨h1, h2⟩ := h.data_ok (n := 1) hr (by omega) (by simp) hp
  obtain ⟨b, hb⟩ := length_one (piece_length hp)
  refine ⟨?_, h2⟩
  simp only [read8, h1, ok_bind', hb, byte]
  simp [unbe]

theorem Sim.read8_no (h : Sim I far file Z R) {s : S} {p : Nat} (hr : R s p)
    (hp : file.length < p + 1) : read8 I s = (.err .ioErr, s) := by
  simp only [read8, h.data_no (n := 1) hr (by omega) hp]; rfl

theorem unbe_add {file : Bytes} {p m n : Nat} (h : p + (m + n) ≤ file.length) :
    unbe (piece file p (m + n)) = unbe (piece file p m) * 256 ^ n + unbe (piece file (p + m) n) := by
  rw [piece_add, unbe_append, piece_length (p := p + m) (by omega)]

theorem or_join {x y k : Nat} (hy : y < 2 ^ k) : x <<< k ||| y = x * 2 ^ k + y := by
  rw [Nat.shiftLeft_eq, Nat.mul_comm x, Nat.two_pow_add_eq_or_of_lt hy]

theorem Sim.read16_ok (h : Sim I far file Z R) {s : S} {p : Nat} (hr : R s p)
    (hp : p + 2 ≤ file.length) :
    (read16 I s).1 = .ok (unbe (piece file p 2)) ∧ R (read16 I s).2 (p + 2) := by
  obtain ⟨a1, a2⟩ := h.read8_ok hr (by omega)
  obtain ⟨b1, b2⟩ := h.read8_ok a2 (by omega)
  have hav : ¬ I.available s < 2 := by rw [h.avail hr]; omega
  have e := unbe_add (file := file) (p := p) (m := 1) (n := 1) (by omega)
  have hl := unbe_lt (piece file (p + 1) 1)
  rw [piece_length (by omega)] at hl
  simp only [read16, if_neg hav, a1, b1, ok_bind']
  refine ⟨?_, b2⟩
  rw [or_join (k := 8) (by simpa using hl), e]

theorem Sim.read16_no (h : Sim I far file Z R) {s : S} {p : Nat} (hr : R s p)
    (hp : file.length < p + 2) : read16 I s = (.err .ioErr, s) := by
  simp only [read16, h.avail hr]
  exact if_pos (by omega)

theorem Sim.read32_ok (h : Sim I far file Z R) {s : S} {p : Nat} (hr : R s p)
    (hp : p + 4 ≤ file.length) :
    (read32 I s).1 = .ok (unbe (piece file p 4)) ∧ R (read32 I s).2 (p + 4) := by
  obtain ⟨a1, a2⟩ := h.read16_ok hr (by omega)
  obtain ⟨b1, b2⟩ := h.read16_ok a2 (by omega)
  have hav : ¬ I.available s < 4 := by rw [h.avail hr]; omega
  have e := unbe_add (file := file) (p := p) (m := 2) (n := 2) (by omega)
  have hl := unbe_lt (piece file (p + 2) 2)
  have hh := unbe_lt (piece file p 2)
  rw [piece_length (by omega)] at hl hh
  simp only [read32, if_neg hav, a1, b1, ok_bind']
  refine ⟨?_, b2⟩
  have hw : unbe (piece file p 2) <<< 16 % 4294967296 = unbe (piece file p 2) <<< 16 := by
    rw [Nat.shiftLeft_eq]; apply Nat.mod_eq_of_lt; simp at hh; omega
  rw [hw, or_join (k := 16) (by simpa using hl), e]

theorem Sim.read32_no (h : Sim I far file Z R) {s : S} {p : Nat} (hr : R s p)
    (hp : file.length < p + 4) : read32 I s = (.err .ioErr, s) := by
  simp only [read32, h.avail hr]
  exact if_pos (by omega)

/-- One call, unless it goes back before the start. -/
theorem Sim.step (h : Sim I far file Z R) {s : S} {p : Nat} (hr : R s p) (op : Op)
    (hz : op = .data 0 → Z) (hw : ∀ n, op = .rewind n → n ≤ p) :
    (Stream.step I s op).1 = (answer far file p op).1 ∧
      R (Stream.step I s op).2 (answer far file p op).2 := by
  cases op with
  | read8 =>
    by_cases hp : p + 1 ≤ file.length
    · obtain ⟨a, b⟩ := h.read8_ok hr hp
      simp only [Stream.step, answer, number, if_pos hp, a, ok_bind', true_and]; exact b
    · simp only [Stream.step, answer, number, if_neg hp, h.read8_no hr (by omega)]
      exact ⟨rfl, hr⟩
  | read16 =>
    by_cases hp : p + 2 ≤ file.length
    · obtain ⟨a, b⟩ := h.read16_ok hr hp
      simp only [Stream.step, answer, number, if_pos hp, a, ok_bind', true_and]; exact b
    · simp only [Stream.step, answer, number, if_neg hp, h.read16_no hr (by omega)]
      exact ⟨rfl, hr⟩
  | read32 =>
    by_cases hp : p + 4 ≤ file.length
    · obtain ⟨a, b⟩ := h.read32_ok hr hp
      simp only [Stream.step, answer, number, if_pos hp, a, ok_bind', true_and]; exact b
    · simp only [Stream.step, answer, number, if_neg hp, h.read32_no hr (by omega)]
      exact ⟨rfl, hr⟩
  | data n =>
    by_cases hf : 2 ^ 32 ≤ n
    · simp only [Stream.step, answer, if_pos hf, h.data_far hr hf]; exact ⟨rfl, hr⟩
    · by_cases hp : p + n ≤ file.length
      · obtain ⟨a, b⟩ := h.data_ok hr (by omega) (fun e => hz (by rw [e])) hp
        simp only [Stream.step, answer, if_neg hf, if_pos hp, a, ok_bind', true_and]; exact b
      · simp only [Stream.step, answer, if_neg hf, if_neg hp,
          h.data_no hr (Nat.lt_of_not_le hf) (by omega)]
        exact ⟨rfl, hr⟩
  | skip n =>
    by_cases hp : p + n ≤ file.length
    · obtain ⟨a, b⟩ := h.skip_ok hr hp
      simp only [Stream.step, answer, if_pos hp, a, ok_bind', true_and]; exact b
    · simp only [Stream.step, answer, if_neg hp, h.skip_no hr (Nat.lt_of_not_le hp)]
      exact ⟨rfl, hr⟩
  | rewind n =>
    have hp := hw n rfl
    obtain ⟨a, b⟩ := h.rewind_ok hr hp
    simp only [Stream.step, answer, if_pos hp, a, ok_bind', true_and]; exact b
  | offset => simp only [Stream.step, answer, h.offset hr]; exact ⟨trivial, hr⟩
  | available => simp only [Stream.step, answer, h.avail hr]; exact ⟨trivial, hr⟩

theorem Sim.run (h : Sim I far file Z R) (ops : List Op) : ∀ {s : S} {p : Nat}, R s p →
    (∀ op ∈ ops, op = .data 0 → Z) → Within far file p ops →
    Stream.run I s ops = answers far file p ops := by
  induction ops with
  | nil => intros; rfl
  | cons op ops ih =>
    intro s p hr hz hw
    obtain ⟨a, b⟩ := h.step hr op (hz op (by simp)) hw.1
    simp only [Stream.run, answers, a]
    rw [ih b (fun o ho => hz o (by simp [ho])) hw.2]

theorem drop_cons {file : Bytes} {p : Nat} (hp : p < file.length) :
    file.drop p = file[p] :: file.drop (p + 1) := List.drop_eq_getElem_cons hp

theorem piece_cons {file : Bytes} {p n : Nat} (hp : p < file.length) :
    piece file p (n + 1) = file[p] :: piece file (p + 1) n := by
  simp only [piece, drop_cons hp, List.take_succ_cons]

theorem rd8_at (file : Bytes) (p : Nat) : rd8 (file.drop p) =
    if p + 1 ≤ file.length then .ok (unbe (piece file p 1), file.drop (p + 1)) else .err .ioErr := by
  by_cases hp : p + 1 ≤ file.length
  · rw [if_pos hp, drop_cons (by omega), piece_cons (by omega)]
    simp [rd8, piece, unbe]
  · rw [if_neg hp, List.drop_of_length_le (by omega)]; rfl

theorem rd16_at (file : Bytes) (p : Nat) : rd16 (file.drop p) =
    if p + 2 ≤ file.length then .ok (unbe (piece file p 2), file.drop (p + 2)) else .err .ioErr := by
  by_cases hp : p + 2 ≤ file.length
  · rw [if_pos hp, drop_cons (by omega), drop_cons (p := p + 1) (by omega), rd16_cons,
      piece_cons (by omega), piece_cons (by omega)]
    simp [piece, unbe]
  · rw [if_neg hp, rd16, if_pos (by rw [List.length_drop]; omega)]

theorem rd32_at (file : Bytes) (p : Nat) : rd32 (file.drop p) =
    if p + 4 ≤ file.length then .ok (unbe (piece file p 4), file.drop (p + 4)) else .err .ioErr := by
  by_cases hp : p + 4 ≤ file.length
  · rw [if_pos hp, drop_cons (by omega), drop_cons (p := p + 1) (by omega),
      drop_cons (p := p + 1 + 1) (by omega), drop_cons (p := p + 1 + 1 + 1) (by omega), rd32_cons,
      piece_cons (by omega), piece_cons (by omega), piece_cons (by omega), piece_cons (by omega)]
    simp [piece, unbe]
  · rw [if_neg hp, rd32, if_pos (by rw [List.length_drop]; omega)]

/-- A reading function gives the same on the stream and on the list of bytes. -/
theorem Sim.prog {α : Type} (h : Sim I far file Z R) (hZ : Z) (g : Prog α) :
    ∀ {s : S} {p : Nat} (count : Nat), R s p →
      g.onStream I s count = outcome (g.onBytes ⟨file.drop p, count⟩) := by
  induction g with
  | done a => intros; rfl
  | fail e => intros; rfl
  | read8 k ih =>
    intro s p count hr
    have e : (Prog.read8 k).onBytes ⟨file.drop p, count⟩ =
      (rd8 (file.drop p)).bind fun x => (k x.1).onBytes ⟨x.2, count + 1⟩ := by
      simp only [Prog.onBytes, P.bind_apply, get8]
      cases rd8 (file.drop p) <;> rfl
    rw [e, rd8_at]
    by_cases hp : p + 1 ≤ file.length
    · obtain ⟨a, b⟩ := h.read8_ok hr hp
      simp only [Prog.onStream, a, ok_bind', if_pos hp]
      exact ih _ _ b
    · simp only [Prog.onStream, h.read8_no hr (Nat.lt_of_not_le hp), if_neg hp]; rfl
  | read16 k ih =>
    intro s p count hr
    have e : (Prog.read16 k).onBytes ⟨file.drop p, count⟩ =
      (rd16 (file.drop p)).bind fun x => (k x.1).onBytes ⟨x.2, count + 2⟩ := by
      simp only [Prog.onBytes, P.bind_apply, get16]
      cases rd16 (file.drop p) <;> rfl
    rw [e, rd16_at]
    by_cases hp : p + 2 ≤ file.length
    · obtain ⟨a, b⟩ := h.read16_ok hr hp
      simp only [Prog.onStream, a, ok_bind', if_pos hp]
      exact ih _ _ b
    · simp only [Prog.onStream, h.read16_no hr (Nat.lt_of_not_le hp), if_neg hp]; rfl
  | read32 k ih =>
    intro s p count hr
    have e : (Prog.read32 k).onBytes ⟨file.drop p, count⟩ =
      (rd32 (file.drop p)).bind fun x => (k x.1).onBytes ⟨x.2, count + 4⟩ := by
      simp only [Prog.onBytes, P.bind_apply, get32]
      cases rd32 (file.drop p) <;> rfl
    rw [e, rd32_at]
    by_cases hp : p + 4 ≤ file.length
    · obtain ⟨a, b⟩ := h.read32_ok hr hp
      simp only [Prog.onStream, a, ok_bind', if_pos hp]
      exact ih _ _ b
    · simp only [Prog.onStream, h.read32_no hr (Nat.lt_of_not_le hp), if_neg hp]; rfl
  | data n k ih =>
    intro s p count hr
    have hn : n.toNat < 2 ^ 32 := n.toNat_lt
    have hle := h.le hr
    by_cases hp : p + n.toNat ≤ file.length
    · obtain ⟨a, b⟩ := h.data_ok hr hn (fun _ => hZ) hp
      have hb : getBytes n.toNat ⟨file.drop p, count⟩ =
          .ok (piece file p n.toNat, ⟨file.drop (p + n.toNat), count + n.toNat⟩) := by
        simp only [getBytes, List.length_drop]
        rw [if_neg (by omega), List.drop_drop]; rfl
      simp only [Prog.onStream, a, ok_bind', Prog.onBytes, P.bind_apply, hb]
      exact ih _ _ b
    · have hb : getBytes n.toNat ⟨file.drop p, count⟩ = .err .ioErr := by
        simp only [getBytes, List.length_drop]
        exact if_pos (by omega)
      simp only [Prog.onStream, h.data_no hr hn (Nat.lt_of_not_le hp), Prog.onBytes, P.bind_apply, hb]
      rfl
  | available k ih =>
    intro s p count hr
    have hb : P.available ⟨file.drop p, count⟩ =
        .ok (file.length - p, ⟨file.drop p, count⟩) := by
      simp only [P.available, List.length_drop]
    simp only [Prog.onStream, h.avail hr, Prog.onBytes, P.bind_apply, hb]
    exact ih _ _ hr

end

end Verif.Stream
