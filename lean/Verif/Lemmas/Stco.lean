import Verif.Model.Stco
import Verif.Spec.Batch
import Verif.Lemmas.Box
import Verif.Lemmas.Rle

namespace Verif.Stco

/-- `t` holds the offsets `L`. -/
structure Rep (t : Stco) (L : List Nat) : Prop where
  count : t.count = L.length
  fits : L.length ≤ t.cells.length
  cells : t.cells.take L.length = L

/-- `t` was reached by additions. -/
structure Inv (t : Stco) (L : List Nat) : Prop extends Rep t L where
  alloc : t.alloc = 8 * t.cells.length

theorem Rep.getChunkOffset {t : Stco} {L : List Nat} (h : Rep t L) (c : Nat) :
    getChunkOffset t c = if hc : 1 ≤ c ∧ c - 1 < L.length then .ok L[c - 1] else .err .badParam := by
  unfold Stco.getChunkOffset
  rw [h.count]
  by_cases hc : 1 ≤ c ∧ c - 1 < L.length
  · rw [dif_pos hc, if_neg (by omega), Mem.get_of_take h.cells hc.2]
  · rw [dif_neg hc, if_pos (by omega)]

theorem Rep.used {t : Stco} {L : List Nat} (h : Rep t L) : used t = .ok L := by
  unfold Stco.used
  rw [h.count, if_pos h.fits, h.cells]

theorem addOffset_ok (junk : Nat → Nat) {t : Stco} {L : List Nat} (h : Inv t L) (o : Nat)
    (hl : L.length + 1 < 536869888) : ∃ t', addOffset junk t o = .ok t' ∧ Inv t' (L ++ [o]) := by
  have hc : (t.count + 1) % 4294967296 = L.length + 1 := by rw [h.count]; omega
  have hi : pred32 (L.length + 1) = L.length := rfl
  have hfit := h.fits
  have room : ∃ cells, makeRoom junk t (L.length + 1) = (8 * cells.length, cells) ∧
      L.length < cells.length ∧ cells.take L.length = L := by
    unfold makeRoom
    rw [h.alloc]
    by_cases hgt : (L.length + 1) * 8 > 8 * t.cells.length
    · have ha : (8 * t.cells.length + 8192) % 4294967296 = 8 * t.cells.length + 8192 := by omega
      have hk : (8 * t.cells.length + 8192) / 8 = t.cells.length + 1024 := by omega
      have hlen := Mem.realloc_length junk t.cells (k := t.cells.length + 1024) (by omega)
      rw [if_pos hgt, ha, hk]
      refine ⟨_, by rw [hlen, Nat.mul_add], by omega, ?_⟩
      rw [Mem.realloc_take junk t.cells (by omega) hfit, h.cells]
    · rw [if_neg hgt]
      exact ⟨_, rfl, by omega, h.cells⟩
  obtain ⟨cells, r1, r2, r3⟩ := room
  obtain ⟨g1, g2⟩ := Mem.set_push (v := o) r3 r2
  unfold addOffset
  rw [hc, hi, r1, g1]
  refine ⟨_, rfl, ⟨⟨?_, ?_, g2⟩, ?_⟩⟩
  · simp
  · simp; omega
  · simp

/-- One addition: the offset, and what `realloc` leaves in new memory. -/
def addOne (t : Stco) (a : Nat × (Nat → Nat)) : Res Stco := addOffset a.2 t a.1

theorem addAll_ok : ∀ (as : List (Nat × (Nat → Nat))) (t : Stco) (L : List Nat), Inv t L →
    L.length + as.length < 536869888 →
    ∃ t', runAll addOne t as = .ok t' ∧
      Inv t' (L ++ as.map Prod.fst) := by
  intro as
  induction as with
  | nil => intro t L h _; exact ⟨t, rfl, by simpa using h⟩
  | cons a as ih =>
    intro t L h hl
    simp only [List.length_cons] at hl
    obtain ⟨t', g1, g2⟩ := addOffset_ok a.2 h a.1 (by omega)
    obtain ⟨t'', k1, k2⟩ := ih t' _ g2 (by rw [List.length_append, List.length_singleton]; omega)
    refine ⟨t'', ?_, by simpa using k2⟩
    have g1 : addOne t a = .ok t' := g1
    simp only [runAll, g1, Res.bind]; exact k1

theorem inv_create : Inv create [] := ⟨⟨rfl, by simp, by simp⟩, rfl⟩

/-! ## Relocation -/

/-- What relocation does to one offset. -/
def moved (base stop : Nat) (delta : Int) (o : Nat) : Nat :=
  if o ≥ base ∧ o < stop then add64 o delta else o

theorem moveLoop_ok (base stop : Nat) (delta : Int) : ∀ (X D E : List Nat),
    moveLoop base stop delta X.length D.length (D ++ X ++ E) =
      .ok (D ++ X.map (moved base stop delta) ++ E) := by
  intro X
  induction X with
  | nil => intro D E; simp [moveLoop]
  | cons x X ih =>
    intro D E
    have h1 : (D ++ x :: X ++ E)[D.length]? = some x := by simp
    have h2 : (if x ≥ base ∧ x < stop then (D ++ x :: X ++ E).set D.length (add64 x delta)
        else D ++ x :: X ++ E) = (D ++ [moved base stop delta x]) ++ X ++ E := by
      unfold moved
      split <;> simp
    simp only [List.length_cons, moveLoop, h1]
    rw [h2]
    have := ih (D ++ [moved base stop delta x]) E
    simp only [List.length_append, List.length_cons, List.length_nil] at this
    rw [this]
    simp

theorem mdatMoved_ok {t : Stco} {D X E : List Nat} (base stop : Nat) (delta : Int)
    (hcount : D.length + X.length ≤ t.count) (hX : X ≠ [])
    (hcells : t.cells = D ++ X ++ E) :
    mdatMoved t (D.length + 1) (D.length + X.length) base stop delta =
      .ok { t with cells := D ++ X.map (moved base stop delta) ++ E } := by
  have := List.length_pos_iff.mpr hX
  unfold mdatMoved
  rw [if_neg (by omega), hcells]
  rw [show D.length + X.length + 1 - (D.length + 1) = X.length by omega,
    show D.length + 1 - 1 = D.length by omega, moveLoop_ok]

end Verif.Stco
