import Verif.Lemmas.Stream

/-! # C87: input streams -/

namespace Verif.Stream

theorem shift_zero {n : Nat} (h : n < 2 ^ 32) : n >>> 32 = 0 := by
  rw [Nat.shiftRight_eq_div_pow]; omega

theorem shift_ne {n : Nat} (h : 2 ^ 32 ≤ n) : n >>> 32 ≠ 0 := by
  rw [Nat.shiftRight_eq_div_pow]; omega

/-- Where a stream over memory stands. -/
def Mem.at (base : Nat) (file : Bytes) (s : Mem) (p : Nat) : Prop :=
  s = ⟨file.length - p, base, base + p, file⟩ ∧ p ≤ file.length

theorem Mem.sim {base : Nat} {file : Bytes} (hf : file.length < 2 ^ 32)
    (hb : base + file.length < 2 ^ 64) :
    Sim Mem.impl .notImplemented file True (Mem.at base file) where
  le h := h.2
  avail := by rintro s p ⟨rfl, _⟩; rfl
  offset := by
    rintro s p ⟨rfl, h⟩
    show (base + p + 2 ^ 64 - base) % 18446744073709551616 = p
    omega
  data_ok := by
    rintro s p n ⟨rfl, h⟩ hn - hp
    have h1 : n % 4294967296 = n := Nat.mod_eq_of_lt (by omega)
    simp only [Mem.impl, Mem.data, shift_zero hn, h1, ne_eq, not_true_eq_false, if_false]
    rw [if_neg (by omega)]
    refine ⟨?_, ?_, hp⟩
    · simp only [Mem.fetch]
      rw [if_pos ⟨by omega, by omega⟩, Nat.add_sub_cancel_left]; rfl
    · simp only [Mem.mk.injEq, and_true, true_and]; omega
  data_no := by
    rintro s p n ⟨rfl, h⟩ hn hp
    simp only [Mem.impl, Mem.data, shift_zero hn, ne_eq, not_true_eq_false, if_false]
    exact if_pos (by omega)
  data_far := by
    rintro s p n ⟨rfl, h⟩ hn
    simp only [Mem.impl, Mem.data]
    exact if_pos (shift_ne hn)
  skip_ok := by
    rintro s p n ⟨rfl, h⟩ hp
    have h1 : n % 4294967296 = n := Nat.mod_eq_of_lt (by omega)
    simp only [Mem.impl, Mem.skip, shift_zero (show n < 2 ^ 32 by omega), h1, ne_eq,
      not_true_eq_false, if_false]
    rw [if_neg (by omega)]
    refine ⟨rfl, ?_, hp⟩
    simp only [Mem.mk.injEq, and_true, true_and]; omega
  skip_no := by
    rintro s p n ⟨rfl, h⟩ hp
    simp only [Mem.impl, Mem.skip]
    by_cases hn : 2 ^ 32 ≤ n
    · rw [if_pos (shift_ne hn), if_pos hn]
    · rw [if_neg (by simp [shift_zero (Nat.lt_of_not_le hn)]), if_pos (by omega), if_neg hn]
  rewind_ok := by
    rintro s p n ⟨rfl, h⟩ hn
    simp only [Mem.impl, Mem.rewind]
    rw [if_neg (by omega)]
    refine ⟨rfl, ?_, by omega⟩
    simp only [Mem.mk.injEq, and_true, true_and]
    omega

theorem Mem.start {base : Nat} {file : Bytes} :
    Mem.at base file (Mem.create base file file.length) 0 := ⟨rfl, Nat.zero_le _⟩

/-- Where a stream over a file stands. -/
def File.at (m : Handler.Mapping) (file : Bytes) (s : File Handler.Mapping) (p : Nat) : Prop :=
  s = ⟨file.length - p, p, m⟩ ∧ p ≤ file.length

theorem File.sim {m : Handler.Mapping} {file : Bytes} (hm : m.data = some file)
    (hf : file.length < 2 ^ 63) : Sim (File.impl plain) .ioErr file True (File.at m file) where
  le h := h.2
  avail := by rintro s p ⟨rfl, _⟩; rfl
  offset := by rintro s p ⟨rfl, h⟩; rfl
  data_ok := by
    rintro s p n ⟨rfl, h⟩ hn - hp
    have h1 : n % 4294967296 = n := Nat.mod_eq_of_lt (by omega)
    have h2 : (p + n) % 18446744073709551616 = p + n := Nat.mod_eq_of_lt (by omega)
    simp only [File.impl, File.data, shift_zero hn, h1, h2, ne_eq, not_true_eq_false, if_false]
    rw [if_neg (by omega)]
    refine ⟨?_, ?_, hp⟩
    · simp only [plain, hm]
      rw [if_pos hp]; rfl
    · simp only [plain, File.mk.injEq, and_true]; omega
  data_no := by
    rintro s p n ⟨rfl, h⟩ hn hp
    have h1 : n % 4294967296 = n := Nat.mod_eq_of_lt (by omega)
    simp only [File.impl, File.data, shift_zero hn, h1, ne_eq, not_true_eq_false, if_false]
    exact if_pos (by omega)
  data_far := by
    rintro s p n ⟨rfl, h⟩ hn
    simp only [File.impl, File.data]
    exact if_pos (shift_ne hn)
  skip_ok := by
    rintro s p n ⟨rfl, h⟩ hp
    have h2 : (p + n) % 18446744073709551616 = p + n := Nat.mod_eq_of_lt (by omega)
    simp only [File.impl, File.skip, h2]
    rw [if_neg (by omega)]
    refine ⟨rfl, ?_, hp⟩
    simp only [File.mk.injEq, and_true]; omega
  skip_no := by
    rintro s p n ⟨rfl, h⟩ hp
    simp only [File.impl, File.skip, ite_self]
    exact if_pos (by omega)
  rewind_ok := by
    rintro s p n ⟨rfl, h⟩ hn
    have h2 : (file.length - p + n) % 18446744073709551616 = file.length - p + n :=
      Nat.mod_eq_of_lt (by omega)
    simp only [File.impl, File.rewind, h2]
    rw [if_neg (by omega)]
    refine ⟨rfl, ?_, by omega⟩
    simp only [File.mk.injEq, and_true]; omega

theorem File.start {m : Handler.Mapping} {file : Bytes} :
    File.at m file (File.create file.length m) 0 := ⟨rfl, Nat.zero_le _⟩

theorem File.follow {m : Handler.Mapping} {file : Bytes} (hm : m.data = some file)
    (hf : file.length < 2 ^ 63) (ops : List Op) : ∀ {s : File Handler.Mapping} {p : Nat},
    File.at m file s p → run (File.impl plain) s ops = answers .ioErr file p ops := by
  induction ops with
  | nil => intros; rfl
  | cons op ops ih =>
    intro s p hr
    by_cases hw : ∀ n, op = .rewind n → n ≤ p
    · obtain ⟨a, b⟩ := (File.sim hm hf).step hr op (fun _ => trivial) hw
      simp only [run, answers, a]
      rw [ih b]
    · simp only [Classical.not_forall] at hw
      obtain ⟨n, rfl, hn⟩ := hw
      have a : (step (File.impl plain) s (.rewind n)) = (.err .badParam, s) := by
        obtain ⟨rfl, _⟩ := hr
        simp only [step, File.impl, File.rewind]
        rw [if_pos (by omega)]; rfl
      have b : answer .ioErr file p (.rewind n) = (.err .badParam, p) := by
        simp only [answer]; exact if_neg hn
      simp only [run, answers, a, b]
      rw [ih hr]

/-- **C87, files.** Whatever is asked of a stream over a file, in any order and any number of times,
the answers are those of a place in the bytes of the file. -/
theorem c87_file (m : Handler.Mapping) (file : Bytes) (hm : m.data = some file)
    (hs : m.size64 = file.length) (hf : file.length < 2 ^ 63) (ops : List Op) :
    run (File.impl plain) (File.create m.size64 m) ops = answers .ioErr file 0 ops := by
  rw [hs]; exact File.follow hm hf ops File.start

/-- **C87, memory.** The same for a stream over a block of memory, as long as nothing goes back
before the start of it (`c87_not_before_start`). -/
theorem c87_memory_partial (base : Nat) (file : Bytes) (hf : file.length < 2 ^ 32)
    (hb : base + file.length < 2 ^ 64) (ops : List Op)
    (hw : Within .notImplemented file 0 ops) :
    run Mem.impl (Mem.create base file file.length) ops = answers .notImplemented file 0 ops :=
  (Mem.sim hf hb).run ops Mem.start (fun _ _ _ => trivial) hw

/-- Going back before the start of a block of memory is not refused (the amount is compared with an
address), and what is read next is not in the block; a stream over a file refuses
(`c87_file`). -/
theorem c87_not_before_start (base : Nat) (file : Bytes) (n : Nat) (h0 : 0 < n) (hn : n ≤ base)
    (hf : file.length + n < 2 ^ 64) :
    run Mem.impl (Mem.create base file file.length) [.rewind n, .read8] = [.ok .done, .ub] := by
  have h1 : (file.length + n) % 18446744073709551616 = file.length + n :=
    Nat.mod_eq_of_lt (by omega)
  have e1 : Mem.rewind (Mem.create base file file.length) n =
      (.ok (), ⟨file.length + n, base, base - n, file⟩) := by
    simp only [Mem.rewind, Mem.create, h1]
    exact if_neg (by omega)
  have e2 : Mem.data ⟨file.length + n, base, base - n, file⟩ 1 =
      (.ub, ⟨file.length + n - 1, base, base - n + 1, file⟩) := by
    simp only [Mem.data, shift_zero (show (1 : Nat) < 2 ^ 32 by omega), ne_eq, not_true_eq_false,
      if_false]
    rw [if_neg (by omega)]
    simp only [Mem.fetch]
    rw [if_neg (by omega)]
  simp only [run, step, Mem.impl, e1, read8, e2]
  rfl

/-- More bytes promised than there are (the size of a file of 4 GiB and more is kept whole but only
its remainder is read: `c86_not_four_gigabytes`): the first read behind the last byte is not
refused. -/
theorem c87_not_checked (m : Handler.Mapping) (file : Bytes) (hm : m.data = some file)
    (hs : file.length < m.size64) (h63 : file.length < 2 ^ 63) :
    run (File.impl plain) (File.create m.size64 m) [.skip file.length, .read8] =
      [.ok .done, .ub] := by
  have h2 : (0 + file.length) % 18446744073709551616 = file.length := by omega
  have e1 : File.skip (File.create m.size64 m) file.length =
      (.ok (), ⟨m.size64 - file.length, file.length, m⟩) := by
    simp only [File.skip, File.create, h2]
    exact if_neg (by omega)
  have e2 : (File.data plain ⟨m.size64 - file.length, file.length, m⟩ 1).1 = .ub := by
    simp only [File.data, shift_zero (show (1 : Nat) < 2 ^ 32 by omega), ne_eq, not_true_eq_false,
      if_false]
    rw [if_neg (by omega)]
    simp only [plain, hm]
    exact if_neg (by omega)
  simp only [run, step, File.impl, e1, read8, e2]
  rfl

/-- **C87, reading functions.** Whatever a reading function asks for, depending on what it has read
so far, from any place of a file: on the stream of the code it gives the result, the error or the
`bytesRead` that it gives on the list of the bytes from that place on, which is what all the other
models of reading functions here are about. -/
theorem c87_parsers_file {α : Type} (m : Handler.Mapping) (file : Bytes) (hm : m.data = some file)
    (hf : file.length < 2 ^ 63) (p : Nat) (hp : p ≤ file.length) (g : Prog α) (count : Nat) :
    g.onStream (File.impl plain) ⟨file.length - p, p, m⟩ count =
      outcome (g.onBytes ⟨file.drop p, count⟩) :=
  (File.sim hm hf).prog trivial g count ⟨rfl, hp⟩

/-- The same for a stream over memory. -/
theorem c87_parsers_memory {α : Type} (base : Nat) (file : Bytes) (hf : file.length < 2 ^ 32)
    (hb : base + file.length < 2 ^ 64) (p : Nat) (hp : p ≤ file.length) (g : Prog α)
    (count : Nat) :
    g.onStream Mem.impl ⟨file.length - p, base, base + p, file⟩ count =
      outcome (g.onBytes ⟨file.drop p, count⟩) :=
  (Mem.sim hf hb).prog trivial g count ⟨rfl, hp⟩

/-- Four calls, one of them too much, and back again. -/
example : run (File.impl plain) (File.create 5 ⟨some [1, 2, 3, 4, 5], 5, none⟩)
    [.read16, .read32, .skip 1, .read16, .rewind 6, .rewind 4, .data 2, .offset, .available] =
    [.ok (.num 258), .err .ioErr, .ok .done, .ok (.num 1029), .err .badParam, .ok .done,
      .ok (.bytes [2, 3]), .ok (.num 3), .ok (.num 2)] := by decide

example : answers .ioErr [1, 2, 3, 4, 5] 0
    [.read16, .read32, .skip 1, .read16, .rewind 6, .rewind 4, .data 2, .offset, .available] =
    [.ok (.num 258), .err .ioErr, .ok .done, .ok (.num 1029), .err .badParam, .ok .done,
      .ok (.bytes [2, 3]), .ok (.num 3), .ok (.num 2)] := by decide

example : Within .notImplemented [1, 2, 3, 4, 5] 0
    [.read16, .read32, .skip 1, .read16, .rewind 4, .data 2, .skip 4294967296] := by
  simp [Within, answer, number]

example : run Mem.impl (Mem.create 4096 [1, 2, 3, 4, 5] 5)
    [.read16, .read32, .skip 1, .read16, .rewind 4, .data 2, .skip 4294967296] =
    [.ok (.num 258), .err .ioErr, .ok .done, .ok (.num 1029), .ok .done,
      .ok (.bytes [2, 3]), .err .notImplemented] := by decide

/-- A reading function: a length, then as many bytes, if there are as many left. -/
def sample : Prog Bytes :=
  .read16 fun n => .available fun left =>
    if left < n then .fail .badData else .data (UInt32.ofNat n) fun b => .done b

example : sample.onStream (File.impl plain) ⟨5, 1, ⟨some [9, 0, 2, 7, 8, 9], 6, none⟩⟩ 8 =
    .ok ([7, 8], 12) := by decide

example : sample.onStream Mem.impl ⟨3, 4096, 4098, [9, 9, 0, 2, 7]⟩ 8 = .err .badData := by decide

end Verif.Stream
