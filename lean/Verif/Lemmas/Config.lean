import Verif.Spec.Config
import Verif.Lemmas.Auto

/-! # Lists of parameter sets -/

namespace Verif.Config

theorem bind_ok {α β : Type} (a : α) (f : α → Res β) : (Res.ok a).bind f = f a := rfl

theorem emits_nal (b : Bytes) : Emits (putNal b) (nalBytes b) := (emits_put16 _).seq (emits_bytes _)

theorem emits_nals (l : List Bytes) : Emits (W.each putNal l) (l.flatMap nalBytes) :=
  Emits.each l fun b _ => emits_nal b

theorem parses_nal {b : Bytes} (h : b.length < 65536) : Parses getNal (nalBytes b) b :=
  (parses_get16' h).bind (parses_getBytes rfl)

theorem parses_nals {l : List Bytes} {n : Nat} (h : ∀ b ∈ l, b.length < 65536) (hn : l.length = n) :
    Parses (P.repeat n getNal) (l.flatMap nalBytes) l :=
  parses_repeat l nalBytes (fun b hb => parses_nal (h b hb)) hn

theorem nals_length (l : List Bytes) : (l.flatMap nalBytes).length = nalsSize l := by
  induction l with
  | nil => rfl
  | cons b l ih =>
    have e : nalsSize (b :: l) = 2 + b.length + nalsSize l := rfl
    rw [List.flatMap_cons, List.length_append, ih, e]
    simp [nalBytes]

theorem nalsSize_le {l : List Bytes} (h : ∀ b ∈ l, b.length < 65536) : nalsSize l ≤ 65537 * l.length := by
  induction l with
  | nil => simp [nalsSize]
  | cons b l ih =>
    have e : nalsSize (b :: l) = 2 + b.length + nalsSize l := rfl
    have h1 := ih fun x hx => h x (by simp [hx])
    have h2 := h b (by simp)
    rw [e, List.length_cons]
    omega

theorem nth_eq {l : List Bytes} (hl : l.length < 4294967296) (i : Nat) : nth l i = answer l i := by
  unfold nth answer pred32
  by_cases h : i = 0
  · have e : l[4294967295]? = none := List.getElem?_eq_none (by omega)
    simp only [h, if_true, e]
  · simp only [h, if_false]
    cases l[i - 1]? <;> rfl

theorem setsOf_append (a b : List (Nat × Bytes)) (k : Nat) : setsOf (a ++ b) k = setsOf a k ++ setsOf b k := by
  simp [setsOf]

theorem setsOf_one (k t : Nat) (b : Bytes) : setsOf [(t, b)] k = if t = k then [b] else [] := by
  by_cases h : t = k <;> simp [setsOf, h]

/-- The parser runs into undefined behaviour on any input that starts with `bs`. -/
def Bad {α : Type} (p : P α) (bs : Bytes) : Prop := ∀ (r : Bytes) (k : Nat), p ⟨bs ++ r, k⟩ = .ub

theorem Bad.bind {α β : Type} {p : P α} {bs : Bytes} (h : Bad p bs) (f : α → P β) : Bad (p >>= f) bs := by
  intro r k
  rw [P.bind_apply, h r k]

theorem bindBad {α β : Type} {p : P α} {f : α → P β} {x y : Bytes} {a : α} (hp : Parses p x a)
    (hf : Bad (f a) y) : Bad (p >>= f) (x ++ y) := by
  intro r k
  rw [P.bind_apply, List.append_assoc, hp (y ++ r) k]
  exact hf r _

theorem parseAtom_bad {α : Type} {body : Hdr → P α} {size type : Nat} {x : Bytes}
    (hb : Bad (body ⟨size, type, [], 0, 8⟩) x) (hlen : size = 8 + x.length) (hs : size < 4294967296)
    (ht : type < 4294967296) (hu : type ≠ typeUuid) :
    parseAtom body ((be 4 size ++ be 4 type) ++ x) = .ub := by
  have := hb [] 8
  rw [List.append_nil] at this
  unfold parseAtom
  rw [parseHeader_small hs (by omega) ht hu _ (by omega)]
  simp only [this]

/-- A box whose body parser leaves part of the payload unread. -/
theorem parseAtom_left {α : Type} {body : Hdr → P α} {size type : Nat} {x y : Bytes} {v : α}
    (hb : ParsesAt (body ⟨size, type, [], 0, 8⟩) 8 x v)
    (hlen : size = 8 + (x ++ y).length) (hs : size < 4294967296)
    (ht : type < 4294967296) (hu : type ≠ typeUuid) :
    parseAtom body ((be 4 size ++ be 4 type) ++ (x ++ y)) = .ok (v, ⟨size, type, [], 0, 8⟩, []) := by
  unfold parseAtom
  rw [parseHeader_small hs (by omega) ht hu _ (by omega)]
  simp only [hb y]
  have e : ¬ (size = 1) := by omega
  simp only [List.length_append] at hlen
  simp only [e, if_false, List.length_append, be_length]
  have : y.length ≤ size - (4 + 4 + (x.length + y.length) - y.length) := by omega
  rw [List.drop_eq_nil_of_le this]

end Verif.Config
