import Verif.Lemmas.Descr

/-!
# C30: descriptors survive being written and parsed
-/

namespace Verif.Descr

theorem parsesAt_default {k tag : Nat} {p : Bytes} (h : 1 + k + p.length < 4294967296) :
    ParsesAt (getDefault tag (1 + k + p.length)) (1 + k) p ⟨tag, p⟩ := by
  intro r
  have e : w32(1 + k + p.length + (4294967296 - (1 + k))) = p.length := by omega
  unfold getDefault
  rw [P.bind_apply]
  simp only [P.bytesRead, e]
  exact (parses_getBytes rfl).map (fun x => (⟨tag, x⟩ : Default)) r _

/-- Any number of length bytes that can hold the length is accepted, and the declared size is the
number of bytes consumed. -/
theorem c30_any_length_form {k tag : Nat} {data : Bytes} (hk : 1 ≤ k) (hn : data.length < 2 ^ (7 * k))
    (h32 : 1 + k + data.length < 2 ^ 32) (ht : tag < 256) (hc : ownClass tag = false) (rest : Bytes) (read : Nat) :
    getDesc getPlain ⟨descr k tag data ++ rest, read⟩ =
      .ok (⟨tag, data⟩, ⟨rest, read + (1 + k + data.length)⟩) := by
  rw [← descr_length hk tag data]
  have e : (128 : Nat) ^ k = 2 ^ (7 * k) := by rw [Nat.pow_mul]
  refine parses_desc hk (by omega) h32 ht ?_ rest read
  unfold getPlain
  rw [hc]
  exact parsesAt_default h32

/-- A descriptor of up to 2^28 - 1 bytes is written with four length bytes and read back. -/
theorem c30_written (d : Default) (hl : d.data.length < 2 ^ 28) (ht : d.tag < 256) (hc : ownClass d.tag = false) :
    runW (defaultSize d) (putDefault d) = .ok (descr 4 d.tag d.data) ∧
    (descr 4 d.tag d.data).length = defaultSize d ∧
    ∀ (rest : Bytes) (read : Nat), getDesc getPlain ⟨descr 4 d.tag d.data ++ rest, read⟩ =
      .ok (d, ⟨rest, read + defaultSize d⟩) := by
  have e : defaultSize d = 5 + d.data.length := by unfold defaultSize; omega
  refine ⟨?_, ?_, ?_⟩
  · unfold putDefault
    rw [e]
    exact (emits_descr hl (emits_bytes _)).run_ok (by rw [descr_length (by omega)]) (by omega)
  · rw [descr_length (by omega), e]
  · intro rest read
    rw [c30_any_length_form (by omega) (by omega) (by omega) ht hc, e]

/-- A longer one is written without an error, but with the length modulo 2^28: reading it gives a
prefix of the data and stops in the middle. -/
theorem c30_too_long_cut (d : Default) (hl : 2 ^ 28 ≤ d.data.length) (hu : d.data.length < 2 ^ 32 - 5)
    (ht : d.tag < 256) (hc : ownClass d.tag = false) :
    ∃ bytes, runW (defaultSize d) (putDefault d) = .ok bytes ∧
      ∀ (rest : Bytes) (read : Nat), ∃ s, getDesc getPlain ⟨bytes ++ rest, read⟩ =
        .ok (⟨d.tag, d.data.take (d.data.length % 2 ^ 28)⟩, s) ∧
        s.rest = d.data.drop (d.data.length % 2 ^ 28) ++ rest ∧ d.data.take (d.data.length % 2 ^ 28) ≠ d.data := by
  have e : defaultSize d = 5 + d.data.length := by unfold defaultSize; omega
  have hw := ((emits_header d.tag d.data.length (by omega)).seq (emits_bytes d.data)).run_ok
    (size := 5 + d.data.length) (by
      simp only [List.length_append, be_length, lengthBytes_length (k := 4) (by omega)]) (by omega)
  refine ⟨_, by unfold putDefault; rw [e]; exact hw, ?_⟩
  intro rest read
  have ht' : (d.data.take (d.data.length % 2 ^ 28)).length = d.data.length % 268435456 := by
    rw [List.length_take]; omega
  have hp := c30_any_length_form (k := 4) (tag := d.tag) (data := d.data.take (d.data.length % 2 ^ 28)) (by omega)
    (by rw [ht']; omega) (by rw [ht']; omega) ht hc (d.data.drop (d.data.length % 2 ^ 28) ++ rest) read
  unfold descr at hp
  rw [ht'] at hp
  refine ⟨_, Eq.trans ?_ hp, rfl, ?_⟩
  · congr 2
    simp only [List.append_assoc]
    rw [← List.append_assoc (d.data.take _), List.take_append_drop]
  · intro h
    have := congrArg List.length h
    omega

/-- A decoder specific information of three bytes; the same with the one-byte length other writers
use, and with a padded one. -/
example : runW (defaultSize ⟨5, [0x12, 0x10, 0x56]⟩) (putDefault ⟨5, [0x12, 0x10, 0x56]⟩) =
    .ok [5, 0x80, 0x80, 0x80, 3, 0x12, 0x10, 0x56] := by decide

example : getDesc getPlain ⟨[5, 3, 0x12, 0x10, 0x56, 9], 0⟩ = .ok (⟨5, [0x12, 0x10, 0x56]⟩, ⟨[9], 5⟩) := by decide

example : descr 2 5 [1, 2] = [5, 0x80, 2, 1, 2] ∧ ownClass 5 = false := by decide

/-- Tags of the default class. -/
example : ownClass 5 = false ∧ ownClass 9 = false ∧ ownClass 0x43 = false ∧ ownClass 0xFE = false := by decide

end Verif.Descr
