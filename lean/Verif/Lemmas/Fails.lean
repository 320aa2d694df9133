import Verif.Lemmas.Box

/-!
# Readers that stop with an error
-/

namespace Verif

/-- The reader stops with the error, whatever follows the bytes. -/
def FailsAt {α : Type} (p : P α) (k : Nat) (bs : Bytes) (e : Err) : Prop := ∀ r : Bytes, p ⟨bs ++ r, k⟩ = .err e

theorem FailsAt.bind {α β : Type} {p : P α} {f : α → P β} {k : Nat} {bs cs : Bytes} {v : α} {e : Err} (h : ParsesAt p k bs v)
    (h' : FailsAt (f v) (k + bs.length) cs e) : FailsAt (p >>= f) k (bs ++ cs) e := by
  intro r
  rw [List.append_assoc, P.bind_apply, h]
  exact h' r

theorem FailsAt.first {α β : Type} {p : P α} {f : α → P β} {k : Nat} {bs : Bytes} {e : Err} (h : FailsAt p k bs e) :
    FailsAt (p >>= f) k bs e := by
  intro r
  rw [P.bind_apply, h]

theorem FailsAt.pure {α β : Type} {f : α → P β} {k : Nat} {bs : Bytes} {v : α} {e : Err} (h' : FailsAt (f v) k bs e) :
    FailsAt ((Pure.pure v : P α) >>= f) k bs e := h'

theorem FailsAt.read {β : Type} {f : Nat → P β} {k : Nat} {bs : Bytes} {e : Err} (h' : FailsAt (f k) k bs e) :
    FailsAt (P.bytesRead >>= f) k bs e := h'

theorem failsAt_fail {α : Type} {k : Nat} {bs : Bytes} (e : Err) : FailsAt (P.fail e : P α) k bs e := fun _ => rfl

theorem parseAtom_fails {α : Type} {body : Hdr → P α} {size type : Nat} {payload : Bytes} {e : Err}
    (hb : FailsAt (body ⟨size, type, [], 0, 8⟩) 8 payload e) (hlen : size = 8 + payload.length) (hs : size < 4294967296)
    (ht : type < 4294967296) (hu : type ≠ typeUuid) (rest : Bytes) :
    parseAtom body (((be 4 size ++ be 4 type) ++ payload) ++ rest) = .err e := by
  unfold parseAtom
  rw [List.append_assoc, parseHeader_small hs (by omega) ht hu _ (by simp; omega)]
  simp only [hb rest]

end Verif
