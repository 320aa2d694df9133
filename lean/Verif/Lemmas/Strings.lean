import Verif.Model.Strings
import Verif.Lemmas.Auto

/-!
# Lemmas on strings in boxes
-/

namespace Verif.Str

/-- No byte is NUL. -/
def Text (s : Bytes) : Prop := ∀ b ∈ s, b ≠ 0

theorem cstr_text {s : Bytes} (h : Text s) (t : Bytes) : cstr (s ++ 0 :: t) = some s := by
  induction s with
  | nil => simp [cstr]
  | cons b s ih =>
    rw [List.cons_append, cstr, if_neg (h b (by simp)), ih fun x hx => h x (by simp [hx])]
    rfl

theorem cstr_open {s : Bytes} (h : Text s) : cstr s = none := by
  induction s with
  | nil => rfl
  | cons b s ih =>
    rw [cstr, if_neg (h b (by simp)), ih fun x hx => h x (by simp [hx])]
    rfl

theorem splitNul_text {s : Bytes} (h : Text s) (t : Bytes) : splitNul (s ++ 0 :: t) = some (s ++ [0], t) := by
  induction s with
  | nil => simp [splitNul]
  | cons b s ih =>
    rw [List.cons_append, splitNul, if_neg (h b (by simp)), ih fun x hx => h x (by simp [hx])]
    rfl

theorem splitNul_open {s : Bytes} (h : Text s) : splitNul s = none := by
  induction s with
  | nil => rfl
  | cons b s ih =>
    rw [splitNul, if_neg (h b (by simp)), ih fun x hx => h x (by simp [hx])]
    rfl

theorem strSize_eq {s : Bytes} (h : s.length + 1 < 4294967296) : strSize s = s.length + 1 := Nat.mod_eq_of_lt h

theorem emits_putStr {s : Bytes} (h : s.length + 1 < 4294967296) : Emits (putStr s) (s ++ [0]) := by
  unfold putStr
  rw [strSize_eq h, List.take_of_length_le (by simp)]
  exact emits_bytes _

theorem parsesAt_bytesLeft {α : Type} {h : Hdr} {f : Nat → P α} {k n : Nat} {bs : Bytes} {v : α} (hk : h.size = k + n)
    (hs : h.size < 4294967296) (hf : ParsesAt (f n) k bs v) : ParsesAt (bytesLeft h >>= f) k bs v := by
  intro r
  have e : (h.size + 4294967296 - k) % 4294967296 = n := by omega
  show f ((h.size + 4294967296 - k) % 4294967296) ⟨bs ++ r, k⟩ = _
  rw [e]
  exact hf r

theorem parsesAt_assertRead {α : Type} {h : Hdr} {k : Nat} (v : α) (hk : k = h.size) :
    ParsesAt (assertRead h v) k [] v := by
  unfold assertRead
  refine parsesAt_bytesRead ?_
  rw [if_neg (by omega)]
  exact (parses_pure _).at _

theorem parsesAt_debug {room k : Nat} {s t : Bytes} (h : Text s) (hl : s.length ≤ room) :
    ParsesAt (debugStr room (s ++ 0 :: t)) k [] () := by
  unfold debugStr
  rw [cstr_text h]
  simp only
  rw [if_neg (by omega)]
  exact (parses_pure _).at _

/-! ## Undefined behaviour -/

/-- The reader runs into undefined behaviour, whatever follows the bytes. -/
def BreaksAt {α : Type} (p : P α) (k : Nat) (bs : Bytes) : Prop := ∀ r : Bytes, p ⟨bs ++ r, k⟩ = .ub

theorem BreaksAt.bind {α β : Type} {p : P α} {f : α → P β} {k : Nat} {bs cs : Bytes} {v : α} (h : ParsesAt p k bs v)
    (h' : BreaksAt (f v) (k + bs.length) cs) : BreaksAt (p >>= f) k (bs ++ cs) := by
  intro r
  rw [List.append_assoc, P.bind_apply, h]
  exact h' r

theorem BreaksAt.bind_nil {α β : Type} {p : P α} {f : α → P β} {k : Nat} {bs : Bytes} {v : α} (h : ParsesAt p k bs v)
    (h' : BreaksAt (f v) (k + bs.length) []) : BreaksAt (p >>= f) k bs := by
  have := BreaksAt.bind h h'
  simpa using this

theorem BreaksAt.first {α β : Type} {p : P α} {f : α → P β} {k : Nat} {bs : Bytes} (h : BreaksAt p k bs) :
    BreaksAt (p >>= f) k bs := by
  intro r
  rw [P.bind_apply, h]

theorem BreaksAt.left {α : Type} {h : Hdr} {f : Nat → P α} {k n : Nat} {bs : Bytes} (hk : h.size = k + n)
    (hs : h.size < 4294967296) (hf : BreaksAt (f n) k bs) : BreaksAt (bytesLeft h >>= f) k bs := by
  intro r
  have e : (h.size + 4294967296 - k) % 4294967296 = n := by omega
  show f ((h.size + 4294967296 - k) % 4294967296) ⟨bs ++ r, k⟩ = _
  rw [e]
  exact hf r

theorem breaksAt_debug {room k : Nat} {s bs : Bytes} (h : Text s) : BreaksAt (debugStr room s) k bs := by
  unfold debugStr
  rw [cstr_open h]
  exact fun _ => rfl

theorem breaksAt_long {room k : Nat} {s t bs : Bytes} (h : Text s) (hl : room < s.length) :
    BreaksAt (debugStr room (s ++ 0 :: t)) k bs := by
  unfold debugStr
  rw [cstr_text h]
  simp only
  rw [if_pos (by omega)]
  exact fun _ => rfl

/-! ## Whole boxes -/

theorem fullBox_eq (type version flags : Nat) (payload : Bytes) : fullBox type version flags payload =
    (be 4 (12 + payload.length) ++ be 4 type) ++ (be 1 version ++ be 3 flags ++ payload) := by
  simp only [fullBox, box, List.length_append, be_length]
  rw [show 8 + (1 + 3 + payload.length) = 12 + payload.length by omega]

theorem fullBox_reads {α : Type} {body : Hdr → P α} {type version flags : Nat} {payload : Bytes} {v : α}
    (hb : ParsesAt (body ⟨12 + payload.length, type, [], 0, 8⟩) 8 (be 1 version ++ be 3 flags ++ payload) v)
    (hs : 12 + payload.length < 4294967296) (ht : type < 4294967296) (hu : type ≠ typeUuid) (rest : Bytes) :
    ∃ hd, parseAtom body (fullBox type version flags payload ++ rest) = .ok (v, hd, rest) := by
  rw [fullBox_eq]
  exact ⟨_, parseAtom_small hb (by simp; omega) hs ht hu rest⟩

theorem fullBox_breaks {α : Type} {body : Hdr → P α} {type version flags : Nat} {payload : Bytes}
    (hb : BreaksAt (body ⟨12 + payload.length, type, [], 0, 8⟩) 8 (be 1 version ++ be 3 flags ++ payload))
    (hs : 12 + payload.length < 4294967296) (ht : type < 4294967296) (hu : type ≠ typeUuid) (rest : Bytes) :
    parseAtom body (fullBox type version flags payload ++ rest) = .ub := by
  rw [fullBox_eq]
  unfold parseAtom
  rw [List.append_assoc, parseHeader_small hs (by omega) ht hu _ (by simp; omega)]
  simp only [hb rest]

theorem runW_bad (size : Nat) : runW size W.bad = .ub := rfl


end Verif.Str
