import Verif.Spec.Box
import Verif.Lemmas.Codec

namespace Verif

theorem Emits.run_assert {w : W} {bs : Bytes} (h : Emits w bs) {size : Nat}
    (hs : bs.length = size) (hl : size < 4294967296) : runW size (w ;; W.assertFull) = .ok bs := by
  unfold runW W.seq
  rw [h ⟨[], size⟩ (by simp) (by simp; omega)]
  simp [hs, Res.bind, W.assertFull]

/-- `p`, started with `bytesRead = k`, consumes exactly `bs`. -/
def ParsesAt {α : Type u} (p : P α) (k : Nat) (bs : Bytes) (v : α) : Prop :=
  ∀ r : Bytes, p ⟨bs ++ r, k⟩ = .ok (v, ⟨r, k + bs.length⟩)

theorem Parses.at {α : Type u} {p : P α} {bs : Bytes} {v : α} (h : Parses p bs v) (k : Nat) :
    ParsesAt p k bs v := fun r => h r k

theorem ParsesAt.bind {α β : Type} {p : P α} {f : α → P β} {k : Nat} {x y : Bytes} {a : α} {b : β}
    (hp : ParsesAt p k x a) (hf : ParsesAt (f a) (k + x.length) y b) :
    ParsesAt (p >>= f) k (x ++ y) b := by
  intro r
  rw [P.bind_apply, List.append_assoc, hp]
  simp only
  rw [hf]
  simp [Nat.add_assoc]

theorem ParsesAt.bind_nil {α β : Type} {p : P α} {f : α → P β} {k : Nat} {x : Bytes} {a : α} {b : β}
    (hp : ParsesAt p k x a) (hf : ParsesAt (f a) (k + x.length) [] b) :
    ParsesAt (p >>= f) k x b := by
  have := hp.bind hf
  simpa using this

theorem parseHeader_small {size type : Nat} (hs : size < 4294967296) (h8 : 8 ≤ size)
    (ht : type < 4294967296) (hu : type ≠ typeUuid) (r : Bytes) (hr : size ≤ 8 + r.length) :
    parseHeader ((be 4 size ++ be 4 type) ++ r) = .ok (⟨size, type, [], 0, 8⟩, r) := by
  unfold parseHeader
  rw [List.append_assoc, rd32_be, Res.ok_bind]
  have e1 : size % 4294967296 = size := Nat.mod_eq_of_lt hs
  have e2 : ¬ (size ≠ 1 ∧ (size + 4294967292) % 4294967296 > (be 4 type ++ r).length) := by
    simp only [List.length_append, be_length]; omega
  have e3 : ¬ (size = 0) := by omega
  have e4 : ¬ (size = 1) := by omega
  have e5 : ¬ (size ≠ 1 ∧ size < 8) := by omega
  simp only [e1, e3, if_false, if_neg e2]
  rw [rd32_be, Res.ok_bind]
  simp only [Nat.mod_eq_of_lt ht, hu, e4, if_false, Res.ok_bind, if_neg e5]

/-- A box with a 32-bit size whose body parser consumes exactly the payload. -/
theorem parseAtom_small {α : Type} {body : Hdr → P α} {size type : Nat} {payload : Bytes} {v : α}
    (hb : ParsesAt (body ⟨size, type, [], 0, 8⟩) 8 payload v)
    (hlen : size = 8 + payload.length) (hs : size < 4294967296)
    (ht : type < 4294967296) (hu : type ≠ typeUuid) (rest : Bytes) :
    parseAtom body (((be 4 size ++ be 4 type) ++ payload) ++ rest) =
      .ok (v, ⟨size, type, [], 0, 8⟩, rest) := by
  unfold parseAtom
  rw [List.append_assoc, parseHeader_small hs (by omega) ht hu _ (by simp; omega)]
  simp only [hb rest]
  have e : ¬ (size = 1) := by omega
  simp only [e, if_false, List.length_append, be_length]
  have : size - (4 + 4 + (payload.length + rest.length) - rest.length) = 0 := by omega
  rw [this, List.drop_zero]

/-! ## Serializers that end with the assertion -/

/-- `w` appends exactly `bs` when that fills the declared size. -/
def EmitsFull (w : W) (bs : Bytes) : Prop :=
  ∀ s : WS, s.out.length + bs.length = s.size → s.size < 4294967296 →
    w s = .ok { s with out := s.out ++ bs }

theorem Emits.full {w : W} {bs : Bytes} (h : Emits w bs) : EmitsFull w bs := by
  intro s h1 h2
  rw [h s (by omega) (by omega), if_pos (by omega)]

theorem emitsFull_assert : EmitsFull W.assertFull [] := by
  intro s h1 _
  simp only [List.length_nil, Nat.add_zero] at h1
  simp [W.assertFull, h1]

theorem Emits.then {a b : W} {x y : Bytes} (ha : Emits a x) (hb : EmitsFull b y) :
    EmitsFull (a ;; b) (x ++ y) := by
  intro s h1 h2
  simp only [List.length_append] at h1
  unfold W.seq
  rw [ha s (by omega) (by omega), if_pos (by omega)]
  simp only [Res.bind]
  have := hb { s with out := s.out ++ x } (by simp; omega) h2
  simpa using this

theorem Emits.thenAssert {a : W} {x : Bytes} (ha : Emits a x) : EmitsFull (a ;; W.assertFull) x := by
  have := ha.then emitsFull_assert
  simpa using this

theorem EmitsFull.runW {w : W} {bs : Bytes} (h : EmitsFull w bs) {size : Nat}
    (hl : bs.length = size) (hs : size < 4294967296) : runW size w = .ok bs := by
  unfold Verif.runW
  rw [h ⟨[], size⟩ (by simpa using hl) hs]
  simp

theorem emits_nested {size : Nat} {w : W} {bs : Bytes} (h : runW size w = .ok bs)
    (hl : bs.length = size) : Emits (nested size w) bs := by
  intro s _ h2
  unfold nested
  rw [h, Nat.mod_eq_of_lt (by omega)]
  by_cases hf : s.out.length + bs.length ≤ s.size
  · rw [if_neg (by omega), if_pos hf]; rfl
  · rw [if_pos (by omega), if_neg hf]

theorem BoxRoundTrip.of {α : Type} {size type : Nat} {ser : W} {body : Hdr → P α} {v : α}
    {payload : Bytes}
    (hser : EmitsFull ser ((be 4 size ++ be 4 type) ++ payload))
    (hparse : ParsesAt (body ⟨size, type, [], 0, 8⟩) 8 payload v)
    (hlen : size = 8 + payload.length) (hs : size < 4294967296)
    (ht : type < 4294967296) (hu : type ≠ typeUuid) :
    BoxRoundTrip size ser body v (box type payload) := by
  have e : box type payload = (be 4 size ++ be 4 type) ++ payload := by
    unfold box; rw [hlen]
  rw [e]
  exact ⟨hser.runW (by simp; omega) hs, by simp; omega,
    fun rest => ⟨_, parseAtom_small hparse hlen hs ht hu rest⟩⟩

theorem parsesAt_bytesRead {α : Type} {f : Nat → P α} {k : Nat} {bs : Bytes} {v : α}
    (h : ParsesAt (f k) k bs v) : ParsesAt (P.bytesRead >>= f) k bs v := by
  intro r
  rw [P.bind_apply]
  exact h r

theorem ParsesAt.of_eq {α : Type} {p : P α} {k : Nat} {x y : Bytes} {a b : α} (h : ParsesAt p k x a)
    (hx : x = y) (ha : a = b) : ParsesAt p k y b := by subst hx; subst ha; exact h

/-- Same for full boxes: `w` is what follows the version and flags, `k` the rest of the parser. -/
theorem BoxRoundTrip.ofFull {α : Type} {size type version flags : Nat} {w : W}
    {body : Hdr → P α} {v : α} {payload : Bytes}
    (hser : EmitsFull w payload)
    (hparse : ParsesAt (body ⟨size, type, [], 0, 8⟩) 8 (be 1 version ++ be 3 flags ++ payload) v)
    (hlen : size = 12 + payload.length) (hs : size < 4294967296)
    (ht : type < 4294967296) (hu : type ≠ typeUuid) :
    BoxRoundTrip size (serFull size type version flags ;; w) body v
      (fullBox type version flags payload) := by
  apply BoxRoundTrip.of _ hparse (by simp; omega) hs ht hu
  have := (emits_serFull size type version flags).then hser
  simpa [List.append_assoc] using this

theorem parses_repeat_map {α β : Type} {p : P α} (xs : List β) (g : β → Bytes) (f : β → α)
    (h : ∀ x ∈ xs, Parses p (g x) (f x)) {n : Nat} (hn : xs.length = n) :
    Parses (P.repeat n p) (xs.flatMap g) (xs.map f) := by
  subst hn
  induction xs with
  | nil => exact parses_pure _
  | cons x xs ih =>
    simp only [P.repeat, List.flatMap_cons, List.length_cons, List.map_cons]
    exact (h x (by simp)).bind ((ih fun y hy => h y (by simp [hy])).bind_nil (parses_pure _))

theorem flatMap_length_const {α : Type} {g : α → Bytes} {c : Nat} (xs : List α)
    (h : ∀ x ∈ xs, (g x).length = c) : (xs.flatMap g).length = c * xs.length := by
  induction xs with
  | nil => simp
  | cons x xs ih =>
    simp only [List.flatMap_cons, List.length_append, List.length_cons, Nat.mul_succ]
    rw [h x (by simp), ih fun y hy => h y (by simp [hy])]
    omega

/-- A child box is consumed by its parent, whose count grows by the size of the child. -/
theorem parses_getAtom {α : Type} {body : Hdr → P α} {type : Nat} {payload : Bytes} {v : α}
    (hb : ParsesAt (body ⟨8 + payload.length, type, [], 0, 8⟩) 8 payload v)
    (hs : 8 + payload.length < 4294967296) (ht : type < 4294967296) (hu : type ≠ typeUuid) :
    Parses (getAtom body) (box type payload) v := by
  intro r k
  have := parseAtom_small hb rfl hs ht hu r
  unfold getAtom
  simp only [box] at this ⊢
  simp only [List.append_assoc] at this ⊢
  rw [this]
  simp
  omega

end Verif
