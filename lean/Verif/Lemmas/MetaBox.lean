import Verif.Model.MetaBox
import Verif.Lemmas.Protect
import Verif.Lemmas.Fails
import Verif.Lemmas.Strings

/-!
# Lemmas on meta boxes
-/

namespace Verif.MetaBox

open Verif.Ent
open Verif.Prot
open Verif.Str (Hdlr typeHdlr)
open Verif.Rows (Mere typeMere typePitm pitmSerialize pitmParse)
open Verif.Tree (isFree)

variable {α : Type}

/-! ## Adding boxes -/

/-- The number of boxes of a type in a list. -/
def count (t : Nat) (l : List (Nat × Part α)) : Nat := l.countP fun p => p.1 = t

/-- The number of boxes of a type on the wire. -/
def kount (t : Nat) (ks : List (Kid (Nat × Part α))) : Nat := ks.countP fun k => k.type = t

theorem count_append (t : Nat) (l m : List (Nat × Part α)) : count t (l ++ m) = count t l + count t m := by
  simp [count]

theorem any_count {t : Nat} {l : List (Nat × Part α)} : l.any (fun p => p.1 = t) = true ↔ 0 < count t l := by
  unfold count
  rw [List.countP_pos_iff]
  simp

theorem slots_stay {t : Nat} (h : t ∈ slots) : ¬ Dropped t := by
  intro hd
  rcases hd with rfl | rfl <;> revert h <;> decide

/-- Every box is with its type. -/
def Typed (ks : List (Kid (Nat × Part α))) : Prop := ∀ k ∈ ks, k.val.1 = k.type

theorem adds_once {ks : List (Kid (Nat × Part α))} (ht : Typed ks) (l : List (Nat × Part α))
    (h : ∀ t ∈ slots, count t l + kount t ks ≤ 1) : adds add l ks = .ok (l ++ vals (stay ks)) := by
  induction ks generalizing l with
  | nil => simp [adds, stay, vals]
  | cons k ks ih =>
    have ht' : Typed ks := fun x hx => ht x (by simp [hx])
    simp only [adds]
    rw [stay_cons]
    by_cases hf : isFree k.type
    · rw [if_pos hf, if_pos hf]
      show adds _ l ks = _
      rw [ih ht' l ?_, List.nil_append]
      intro t hs
      have := h t hs
      simp only [kount, List.countP_cons] at this ⊢
      omega
    · rw [if_neg hf, if_neg hf]
      have ha : add l k.type k.val = .ok (l ++ [k.val]) := by
        unfold add
        rw [if_neg ?_]
        rintro ⟨hs, hany⟩
        have h1 := h _ hs
        have h2 := any_count.1 hany
        simp only [kount, List.countP_cons, decide_true, if_true] at h1
        omega
      rw [ha]
      show adds _ (l ++ [k.val]) ks = _
      rw [ih ht' _ ?_, List.append_assoc]
      intro t hs
      have := h t hs
      have e : k.val.1 = k.type := ht k (by simp)
      simp only [kount, List.countP_cons, decide_eq_true_eq] at this ⊢
      rw [count_append]
      have : count t [k.val] = if k.type = t then 1 else 0 := by
        unfold count
        rw [List.countP_cons, List.countP_nil, e]
        simp
      rw [this]
      omega

theorem adds_twice {ks : List (Kid (Nat × Part α))} (ht : Typed ks) (l : List (Nat × Part α)) (hl : ∀ t ∈ slots, count t l ≤ 1)
    {t : Nat} (hs : t ∈ slots) (h : 2 ≤ count t l + kount t ks) : adds add l ks = .err .badParam := by
  induction ks generalizing l with
  | nil =>
    have := hl t hs
    simp [kount] at h
    omega
  | cons k ks ih =>
    have ht' : Typed ks := fun x hx => ht x (by simp [hx])
    simp only [adds]
    have e : k.val.1 = k.type := ht k (by simp)
    by_cases hf : isFree k.type
    · rw [if_pos hf]
      show adds _ l ks = _
      refine ih ht' l hl ?_
      have : k.type ≠ t := fun e => slots_stay hs (e ▸ isFree_iff.1 hf)
      simp only [kount, List.countP_cons, decide_eq_true_eq] at h ⊢
      rw [if_neg this] at h
      omega
    · rw [if_neg hf]
      by_cases ha : k.type ∈ slots ∧ l.any (fun p => p.1 = k.type)
      · unfold add
        rw [if_pos ha]
        rfl
      · have : add l k.type k.val = .ok (l ++ [k.val]) := if_neg ha
        rw [this]
        show adds _ (l ++ [k.val]) ks = _
        have hc : ∀ u, count u [k.val] = if k.type = u then 1 else 0 := by
          intro u
          unfold count
          rw [List.countP_cons, List.countP_nil, e]
          simp
        refine ih ht' _ ?_ ?_
        · intro u hu
          rw [count_append, hc]
          by_cases hk : k.type = u
          · rw [if_pos hk]
            have : ¬ 0 < count u l := fun h0 => ha ⟨hk ▸ hu, any_count.2 (hk ▸ h0)⟩
            omega
          · rw [if_neg hk]
            have := hl u hu
            omega
        · rw [count_append, hc]
          simp only [kount, List.countP_cons, decide_eq_true_eq] at h ⊢
          omega

/-! ## The loop -/

theorem loop_kids {C : Class (Nat × Part α)} {ks : List (Kid (Nat × Part α))} (h : Readable C ks) {start : Bytes} {n size k : Nat}
    {vf : Nat × Nat} {l : List (Nat × Part α)} {r : Bytes} (hf : ks.length < n) (hs : size = k + (wire ks).length)
    (hl : size < 4294967296) :
    loop C start n size (vf, l) ⟨wire ks ++ r, k⟩ = (adds add l ks).bind fun l' => .ok ((vf, l'), ⟨r, size⟩) := by
  induction ks generalizing n k l with
  | nil =>
    obtain ⟨n, rfl⟩ : ∃ m, n = m + 1 := ⟨n - 1, by simp at hf; omega⟩
    simp only [wire, List.flatMap_nil, List.length_nil, List.nil_append, Nat.add_zero] at hs ⊢
    subst hs
    simp only [loop]
    rw [if_neg (by omega)]
    rfl
  | cons c ks ih =>
    obtain ⟨n, rfl⟩ : ∃ m, n = m + 1 := ⟨n - 1, by simp at hf; omega⟩
    obtain ⟨⟨h8, hr⟩, h2⟩ := readable_cons h
    rw [wire_cons] at hs ⊢
    simp only [List.length_append, List.length_cons] at hs hf
    obtain ⟨hd, ht, hz, hp'⟩ := hr (wire ks ++ r)
    simp only [loop]
    rw [if_pos (by omega), List.append_assoc, hp']
    simp only [ht, hz]
    rw [Nat.mod_eq_of_lt (by omega)]
    simp only [adds]
    by_cases hfr : isFree c.type
    · rw [if_pos hfr, if_pos hfr]
      exact ih h2 (by omega) (by omega)
    · rw [if_neg hfr, if_neg hfr]
      cases hadd : add l c.type c.val with
      | ok a => exact ih h2 (by omega) (by omega)
      | err e => rfl
      | ub => rfl

/-- Boxes that can be read and one that cannot, not the first. -/
theorem loop_bad {C : Class (Nat × Part α)} {ks : List (Kid (Nat × Part α))} (h : Readable C ks) {start bad : Bytes} {e : Err} {n size k : Nat}
    {vf : Nat × Nat} {l l' : List (Nat × Part α)} {r : Bytes} (hb : parseAtom C.parse (bad ++ r) = .err e) (ha : adds add l ks = .ok l')
    (hf : ks.length < n) (hs : k + (wire ks).length < size) (hk : 12 < k + (wire ks).length) (hl : size < 4294967296) :
    loop C start n size (vf, l) ⟨wire ks ++ (bad ++ r), k⟩ = .err e := by
  induction ks generalizing n k l with
  | nil =>
    obtain ⟨n, rfl⟩ : ∃ m, n = m + 1 := ⟨n - 1, by simp at hf; omega⟩
    simp only [wire, List.flatMap_nil, List.length_nil, List.nil_append, Nat.add_zero] at hs hk ⊢
    simp only [loop]
    rw [if_pos (by omega), hb]
    cases e <;> simp only []
    rw [if_neg (by omega)]
  | cons c ks ih =>
    obtain ⟨n, rfl⟩ : ∃ m, n = m + 1 := ⟨n - 1, by simp at hf; omega⟩
    obtain ⟨⟨h8, hr⟩, h2⟩ := readable_cons h
    rw [wire_cons] at hs hk ⊢
    simp only [List.length_append, List.length_cons] at hs hf hk
    obtain ⟨hd, ht, hz, hp'⟩ := hr (wire ks ++ (bad ++ r))
    simp only [loop]
    rw [if_pos (by omega), List.append_assoc, hp']
    simp only [ht, hz]
    rw [Nat.mod_eq_of_lt (by omega)]
    simp only [adds] at ha
    by_cases hfr : isFree c.type
    · rw [if_pos hfr] at ha ⊢
      exact ih h2 ha (by omega) (by omega) (by omega)
    · rw [if_neg hfr] at ha ⊢
      cases hadd : add l c.type c.val with
      | ok a => rw [hadd] at ha; exact ih h2 ha (by omega) (by omega) (by omega)
      | err e => rw [hadd] at ha; cases ha
      | ub => rw [hadd] at ha; cases ha

/-- A first box that is bad: the loop begins again at the place of version and flags. -/
theorem loop_back {C : Class (Nat × Part α)} {start r : Bytes} {n size : Nat} {vf : Nat × Nat} {l : List (Nat × Part α)}
    (hb : parseAtom C.parse r = .err .badData) (hs : 12 < size) (hr : start.drop (start.length - r.length - 4) = start) :
    loop C start (n + 1) size (vf, l) ⟨r, 12⟩ =
      match parseAtom C.parse start with
      | .ok (c, h, r') =>
        if isFree h.type then loop C start n size ((0, 0), l) ⟨r', w32(8 + h.size)⟩
        else match add l h.type c with
          | .ok l' => loop C start n size ((0, 0), l') ⟨r', w32(8 + h.size)⟩
          | .err e => .err e
          | .ub => .ub
      | .err e => .err e
      | .ub => .ub := by
  simp only [loop]
  rw [if_pos (by omega), hb]
  simp only [if_true, hr]
  rfl

theorem typed {known : Nat → Bool} {C : Class α} {ks : List (Kid (Nat × Part α))} (h : Readable (parts known C) ks) : Typed ks := by
  intro k hk
  obtain ⟨hd, ht, _, hp⟩ := (h k hk).2 []
  rw [← ht]
  unfold parseAtom at hp
  split at hp
  · rename_i h' r' e
    split at hp
    · rename_i a s e2
      simp only [Res.ok.injEq, Prod.mk.injEq] at hp
      rw [← hp.1, ← hp.2.1]
      revert e2
      show (if h'.type = typeHdlr then P.as _ _ else if h'.type = typePitm then P.as _ _ else if known h'.type = true then P.as _ _ else _ :
        P (Nat × Part α)) _ = _ → _
      split
      · intro e2; exact as_type (g := Prod.fst) e2 fun _ => rfl
      · split
        · intro e2; exact as_type (g := Prod.fst) e2 fun _ => rfl
        · split
          · intro e2; exact as_type (g := Prod.fst) e2 fun _ => rfl
          · intro e2
            have : (P.as (fun d => (h'.type, Part.data d)) (do
              let r ← P.bytesRead
              getBytes ((h'.size + (4294967296 - r)) % 4294967296)) : P (Nat × Part α)) ⟨r', h'.hlen⟩ = .ok (a, s) := by
              rw [← e2]
              unfold P.as
              simp only [P.bind_apply]
              rfl
            exact as_type (g := Prod.fst) this fun _ => rfl
    · cases hp
    · cases hp
  · cases hp
  · cases hp

end Verif.MetaBox
