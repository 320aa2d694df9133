import Verif.Model.ItemFile
import Verif.Spec.ItemFile
import Verif.Props.C27
import Verif.Props.C52

/-!
# C84: the data of an item is what the file says
-/

namespace Verif.ItemFile

open Iloc (Item Extent)
open Movie (InOrder place total ParsedAt)

/-! ## Moving the places -/

/-- The extents of an item after all boxes of `done` were merged. -/
def placedExtent (done : List Mdat.T) (e : Extent) : Extent := { e with offset := place done 0 e.offset }

/-- The item after all boxes of `done` were merged. -/
def placed (done : List Mdat.T) (a : Item) : Item :=
  if a.method = 0 ∧ a.dref = 0 then
    { a with base := place done 0 a.base, extents := a.extents.map fun es => es.map (placedExtent done) }
  else a

theorem placed_nil (a : Item) : placed [] a = a := by
  unfold placed
  split
  · cases a with
    | mk id method dref base extents =>
      cases extents with
      | none => rfl
      | some es =>
        have : es.map (placedExtent []) = es := by
          conv => rhs; rw [← List.map_id es]
          exact List.map_congr_left fun e _ => rfl
        simp only [place, Option.map_some, this]
  · rfl

theorem shift_place (done : List Mdat.T) (t : Mdat.T) (hle : total done ≤ t.dataOffset)
    (hfit : t.dataOffset + t.dataSize < 2 ^ 31) (o : Nat) :
    shift t.dataOffset (t.dataSize + t.dataOffset) ((total done : Int) - t.dataOffset) (place done 0 o) = place (done ++ [t]) 0 o := by
  unfold shift
  rw [Movie.place_append]
  by_cases hp : ∃ u ∈ done, u.dataOffset ≤ o ∧ o < u.dataOffset + u.dataSize
  · rw [if_pos hp, if_neg]
    have := Movie.place_lt done 0 o hp
    omega
  · rw [if_neg hp, Movie.place_none done 0 o hp]
    by_cases ht : t.dataOffset ≤ o ∧ o < t.dataOffset + t.dataSize
    · rw [if_pos ht, if_pos ⟨by omega, by omega⟩]
      unfold u64i
      omega
    · rw [if_neg ht, if_neg (by omega)]

theorem itemMoved_placed (done : List Mdat.T) (t : Mdat.T) (hle : total done ≤ t.dataOffset)
    (hfit : t.dataOffset + t.dataSize < 2 ^ 31) (a : Item) :
    itemMoved t.dataOffset (t.dataSize + t.dataOffset) ((total done : Int) - t.dataOffset) (placed done a) = placed (done ++ [t]) a := by
  unfold itemMoved
  by_cases h : a.method = 0 ∧ a.dref = 0
  · have e : placed done a =
      { a with base := place done 0 a.base, extents := a.extents.map fun es => es.map (placedExtent done) } := by
      unfold placed; rw [if_pos h]
    have e' : placed (done ++ [t]) a =
      { a with base := place (done ++ [t]) 0 a.base, extents := a.extents.map fun es => es.map (placedExtent (done ++ [t])) } := by
      unfold placed; rw [if_pos h]
    rw [e, e', if_pos h]
    simp only [shift_place done t hle hfit]
    congr 1
    cases a.extents with
    | none => rfl
    | some es =>
      simp only [Option.map_some, List.map_map, Option.some.injEq]
      refine List.map_congr_left fun x _ => ?_
      simp [placedExtent, shift_place done t hle hfit]
  · have e : placed done a = a := by unfold placed; rw [if_neg h]
    have e' : placed (done ++ [t]) a = a := by unfold placed; rw [if_neg h]
    rw [e, e', if_neg h]

theorem moved_placed (done : List Mdat.T) (t : Mdat.T) (hle : total done ≤ t.dataOffset)
    (hfit : t.dataOffset + t.dataSize < 2 ^ 31) (l : List Item) :
    moved t.dataOffset (t.dataSize + t.dataOffset) ((total done : Int) - t.dataOffset) (l.map (placed done)) = l.map (placed (done ++ [t])) := by
  unfold moved
  rw [List.map_map]
  exact List.map_congr_left fun a _ => itemMoved_placed done t hle hfit a

/-- The data of the boxes, one after the other. -/
def allData (file : Bytes) (boxes : List Mdat.T) : Bytes := boxes.flatMap fun t => (file.drop t.dataOffset).take t.dataSize

theorem mergeLoop_ok (file : Bytes) (hfile : file.length < 2 ^ 31) (junk : Nat → Nat → UInt8) (l : List Item) :
    ∀ (more : List Mdat.T) (k : Nat) (done : List Mdat.T) (m : Mdat.T) (lo : Nat),
    Mdat.Holds m (allData file done) → InOrder file lo more → total done ≤ lo →
    (∀ u ∈ done, u.dataOffset + u.dataSize ≤ file.length) →
    ∃ m', mergeLoop junk k more m (l.map (placed done)) = .ok (m', l.map (placed (done ++ more))) ∧
      Mdat.Holds m' (allData file (done ++ more)) := by
  intro more
  induction more with
  | nil => intro k done m lo h _ _ _; exact ⟨m, by rw [List.append_nil]; rfl, by rw [List.append_nil]; exact h⟩
  | cons t more ih =>
    intro k done m lo h ho hlo hin
    obtain ⟨pos, hpos, hpa, hrest⟩ := ho
    obtain ⟨d1, d2, d3, d4⟩ := hpa.data
    have hlen : (allData file done).length = total done := Movie.flatMap_total file done hin
    have hrep := h.bound (by rw [hlen]; omega)
    have hms := hrep.size
    rw [hlen] at hms
    have hlt : ((file.drop t.dataOffset).take t.dataSize).length = t.dataSize := by
      rw [List.length_take, List.length_drop]; omega
    have hsum : (allData file done ++ (file.drop t.dataOffset).take t.dataSize).length < 4294967296 := by
      rw [List.length_append, hlen, hlt]; omega
    obtain ⟨m', a1, a2⟩ : ∃ m', Mdat.addMdat (junk k) m t = .ok m' ∧
        Mdat.Holds m' (allData file done ++ (file.drop t.dataOffset).take t.dataSize) := by
      rcases Mdat.addMdat_ok (junk k) hrep d4 (by omega) with ⟨hx, _⟩ | ⟨m', a1, _⟩
      · omega
      · exact ⟨m', a1, Mdat.Holds.merge h d3 a1⟩
    have htot : total (done ++ [t]) = total done + t.dataSize := by simp [total]
    have e1 : allData file (done ++ [t]) = allData file done ++ (file.drop t.dataOffset).take t.dataSize := by
      simp [allData]
    obtain ⟨m2, f1, f2⟩ := ih (k + 1) (done ++ [t]) m' (t.dataOffset + t.dataSize) (by rw [e1]; exact a2) hrest
      (by rw [htot]; omega)
      (by
        intro u hu
        rcases List.mem_append.mp hu with h | h
        · exact hin u h
        · simp at h; subst h; exact d2)
    rw [List.append_assoc] at f1 f2
    refine ⟨m2, ?_, f2⟩
    unfold mergeLoop
    have w1 : t.dataOffset % 4294967296 = t.dataOffset := Nat.mod_eq_of_lt (by omega)
    have w2 : (t.dataSize + t.dataOffset) % 18446744073709551616 = t.dataSize + t.dataOffset :=
      Nat.mod_eq_of_lt (by omega)
    have w3 : s32 ((m.dataSize + (18446744073709551616 - t.dataOffset)) % 18446744073709551616 % 4294967296) =
        (total done : Int) - t.dataOffset := by
      rw [hms]
      unfold s32
      split <;> omega
    rw [w1, w2, w3, a1, moved_placed done t (by omega) (by omega)]
    exact f1

/-- Merging: the boxes one after the other, and every item placed in them. -/
theorem merge_ok (file : Bytes) (hfile : file.length < 2 ^ 31) (junk : Nat → Nat → UInt8) (l : List Item)
    (first : Mdat.T) (more : List Mdat.T) (ho : InOrder file 0 (first :: more)) :
    ∃ m, merge junk first more l = .ok (m, l.map (placed (first :: more))) ∧ Mdat.Holds m (allData file (first :: more)) := by
  obtain ⟨pos, hpos, hpa, hrest⟩ := ho
  obtain ⟨d1, d2, d3, d4⟩ := hpa.data
  have e0 : l = l.map (placed []) := by
    rw [List.map_congr_left (fun a _ => placed_nil a), List.map_id']
  have s1 := moved_placed [] first (Nat.zero_le _) (by omega) l
  rw [← e0] at s1
  obtain ⟨m, f1, f2⟩ := mergeLoop_ok file hfile junk l more 0 [first] first _ (by simpa [allData] using d3) hrest
    (by simp [total]) (by simpa using d2)
  refine ⟨m, ?_, f2⟩
  unfold merge
  have w1 : first.dataOffset % 4294967296 = first.dataOffset := Nat.mod_eq_of_lt (by omega)
  have w2 : (first.dataSize + first.dataOffset) % 18446744073709551616 = first.dataSize + first.dataOffset :=
    Nat.mod_eq_of_lt (by omega)
  have w3 : - s32 first.dataOffset = ((total [] : Nat) : Int) - first.dataOffset := by
    unfold s32
    rw [if_pos (by omega)]
    simp [total]
  rw [w1, if_neg (by omega), w2, w3, s1]
  exact f1

/-! ## Reading the pieces -/

theorem loop_join {get : Item → Res Bytes} {s : S} {a : Item} {base : Nat} {r : Extent → Extent} {g : Extent → Option Bytes} :
    ∀ (es : List Extent) (acc : Bytes) {D : Bytes},
    (∀ e ∈ es, ∀ x, g e = some x → lengthOf get s a (r e) = .ok x.length ∧ pieceOf get s a base (r e) x.length = .ok x) →
    join g es = some D → acc.length + D.length < 4294967296 → loop get s a false base acc (es.map r) = .ok (acc ++ D)
  | [], acc, D, _, h, _ => by
    have : [] = D := by simpa [join] using h
    subst this
    simp [loop]
  | e :: es, acc, D, hg, h, hl => by
    obtain ⟨x, hx, y, hy, e'⟩ : ∃ x, g e = some x ∧ ∃ y, join g es = some y ∧ x ++ y = D := by
      cases hx : g e with
      | none => rw [join, hx] at h; cases h
      | some x =>
        cases hy : join g es with
        | none => rw [join, hx, hy] at h; cases h
        | some y =>
          rw [join, hx, hy] at h
          exact ⟨x, rfl, y, rfl, Option.some.inj h⟩
    subst e'
    obtain ⟨h1, h2⟩ := hg e (by simp) x hx
    rw [List.length_append] at hl
    rw [List.map_cons, loop, h1]
    show (if acc.length + x.length ≥ 4294967296 then Res.ub else _) = _
    rw [if_neg (by omega), h2]
    show loop get s a false base (acc ++ x) (es.map r) = _
    rw [loop_join es (acc ++ x) (fun e he => hg e (by simp [he])) hy (by rw [List.length_append]; omega), List.append_assoc]

/-- The first extent is read with the base, the others with the base less its offset. -/
theorem loop_first {get : Item → Res Bytes} {s : S} {a : Item} {base : Nat} {r : Extent → Extent} {g : Extent → Option Bytes}
    (es : List Extent) {D : Bytes}
    (h1 : ∀ e, es.head? = some e → ∀ x, g e = some x →
      lengthOf get s a (r e) = .ok x.length ∧ pieceOf get s a base (r e) x.length = .ok x)
    (h2 : ∀ e, es.head? = some e → ∀ e' ∈ es.tail, ∀ x, g e' = some x →
      lengthOf get s a (r e') = .ok x.length ∧ pieceOf get s a w64(base + (18446744073709551616 - (r e).offset)) (r e') x.length = .ok x)
    (h : join g es = some D) (hl : D.length < 4294967296) : loop get s a true base [] (es.map r) = .ok D := by
  cases es with
  | nil =>
    have : [] = D := by simpa [join] using h
    subst this
    rfl
  | cons e es =>
    obtain ⟨x, hx, y, hy, e'⟩ : ∃ x, g e = some x ∧ ∃ y, join g es = some y ∧ x ++ y = D := by
      cases hx : g e with
      | none => rw [join, hx] at h; cases h
      | some x =>
        cases hy : join g es with
        | none => rw [join, hx, hy] at h; cases h
        | some y =>
          rw [join, hx, hy] at h
          exact ⟨x, rfl, y, rfl, Option.some.inj h⟩
    subst e'
    obtain ⟨p1, p2⟩ := h1 e rfl x hx
    rw [List.length_append] at hl
    rw [List.map_cons, loop, p1]
    show (if 0 + x.length ≥ 4294967296 then Res.ub else _) = _
    rw [if_neg (by omega), p2]
    show loop get s a false w64(base + (18446744073709551616 - (r e).offset)) ([] ++ x) (es.map r) = _
    rw [loop_join es ([] ++ x) (h2 e rfl) hy (by rw [List.nil_append]; omega), List.nil_append]

/-! ## What is read as the file says -/

/-- `n` bytes at `o` of the file are in the data of one of the boxes. -/
def Within (boxes : List Mdat.T) (o n : Nat) : Prop := ∃ u ∈ boxes, u.dataOffset ≤ o ∧ o + n ≤ u.dataOffset + u.dataSize

/-- Extents in the file that the library understands: places in the file, only one of them or the first at the beginning of the media data; or places
from a base in a media data box, the first at the base, and none that could be one in a media data box. -/
def Located (boxes : List Mdat.T) (base : Nat) (es : List Extent) : Prop :=
  (base = 0 ∧ (∀ e ∈ es, e.length ≠ 0 ∧ Within boxes e.offset e.length) ∧
    (es.length ≤ 1 ∨ ∃ e t, es.head? = some e ∧ boxes.head? = some t ∧ e.offset = t.dataOffset)) ∨
  (∃ u ∈ boxes, u.dataOffset ≤ base ∧ (∀ e, es.head? = some e → e.offset = 0) ∧
    ∀ e ∈ es, e.length ≠ 0 ∧ base + e.offset + e.length ≤ u.dataOffset + u.dataSize ∧ ∀ k, 0 < k → ¬ Within boxes e.offset k)

/-- Items that the library reads as the file says, with items made of items up to a depth. -/
def Proper (f : File) (boxes : List Mdat.T) : Nat → Item → Prop
  | 0, _ => False
  | n + 1, a => a.dref = 0 ∧ (∀ D, means (n + 1) f a = some D → D.length < 2 ^ 32) ∧
    ((a.method = 0 ∧ Located boxes a.base (a.extents.getD [])) ∨
     (a.method = 1 ∧ a.base = 0) ∨
     (a.method = 2 ∧ a.base = 0 ∧ ∀ e ∈ a.extents.getD [], 1 ≤ e.index ∧ e.index < 2 ^ 16 ∧
       ∀ b, f.target a e.index = some b → Proper f boxes n b))

theorem cut_some {src x : Bytes} {p n : Nat} (h : cut src p n = some x) : p + n ≤ src.length ∧ x = (src.drop p).take n ∧ x.length = n := by
  unfold cut at h
  split at h
  · next h' =>
    injection h with h
    subst h
    exact ⟨h', rfl, by rw [List.length_take, List.length_drop]; omega⟩
  · cases h

theorem join_mem {g : Extent → Option Bytes} : ∀ {es : List Extent} {D : Bytes}, join g es = some D →
    ∀ e ∈ es, ∃ x, g e = some x ∧ x.length ≤ D.length
  | [], _, _, e, he => by simp at he
  | e0 :: es, D, h, e, he => by
    cases hx : g e0 with
    | none => rw [join, hx] at h; cases h
    | some x =>
      cases hy : join g es with
      | none => rw [join, hx, hy] at h; cases h
      | some y =>
        rw [join, hx, hy] at h
        have h : x ++ y = D := Option.some.inj h
        subst h
        rcases List.mem_cons.mp he with rfl | he
        · exact ⟨x, hx, by rw [List.length_append]; omega⟩
        · obtain ⟨z, hz, hl⟩ := join_mem hy e he
          exact ⟨z, hz, by rw [List.length_append]; omega⟩

theorem hlen_pos {inp r : Bytes} {h : Hdr} (e : parseHeader inp = .ok (h, r)) : 8 ≤ h.hlen := by
  unfold parseHeader at e
  cases e1 : rd32 inp with
  | err _ => rw [e1] at e; cases e
  | ub => rw [e1] at e; cases e
  | ok v =>
    obtain ⟨z, r1⟩ := v
    rw [e1] at e
    simp only [Bind.bind, Res.bind] at e
    generalize (if z = 0 then (if r1.length + 4 < 4294967296 then r1.length + 4 else 1) else z) = sz at e
    split at e
    · cases e
    · cases e2 : rd32 r1 with
      | err _ => rw [e2] at e; cases e
      | ub => rw [e2] at e; cases e
      | ok v2 =>
        obtain ⟨ty, r2⟩ := v2
        rw [e2] at e
        simp only at e
        split at e
        · next x hx =>
          have h8 : 8 ≤ x.2.2 := by
            split at hx
            · split at hx
              · cases hx
              · injection hx with hx; subst hx; show 8 ≤ 24; omega
            · injection hx with hx; subst hx; show 8 ≤ 8; omega
          split at e
          · next y hy =>
            have h8' : 8 ≤ y.2.2 := by
              split at hy
              · split at hy
                · split at hy
                  · injection hy with hy; subst hy; show 8 ≤ x.2.2 + 8; omega
                  · cases hy
                  · cases hy
                · cases hy
                · cases hy
              · injection hy with hy; subst hy; exact h8
            split at e
            · cases e
            · injection e with e
              injection e with e _
              subst e
              exact h8'
          · cases e
          · cases e
        · cases e
        · cases e

theorem first_byte {file : Bytes} {pos : Nat} {t : Mdat.T} (h : ParsedAt file pos t) : 8 ≤ t.dataOffset := by
  obtain ⟨h0, hd, rest, e⟩ := h
  obtain ⟨r, s, e1, e2⟩ := Movie.parseAtom_inv e
  have h3 := Movie.parseBody_offset e2 h0
  have := hlen_pos e1
  dsimp only at h3
  omega

/-- What is needed of the boxes. -/
structure Boxes (file : Bytes) (boxes : List Mdat.T) : Prop where
  inside : ∀ t ∈ boxes, 8 ≤ t.dataOffset ∧ t.dataSize ≠ 0 ∧ t.dataOffset + t.dataSize ≤ file.length
  apart : List.Pairwise (fun a b : Mdat.T => a.dataOffset + a.dataSize ≤ b.dataOffset) boxes

theorem boxes_of {file : Bytes} : ∀ {boxes : List Mdat.T} {lo : Nat}, InOrder file lo boxes → Boxes file boxes
  | [], _, _ => ⟨by simp, by simp⟩
  | t :: ts, lo, h => by
    have hp := (Movie.inOrder_pairwise _ _ h).2
    obtain ⟨pos, h1, h2, h3⟩ := h
    refine ⟨fun u hu => ?_, hp⟩
    rcases List.mem_cons.mp hu with rfl | hu
    · exact ⟨first_byte h2, h2.1, h2.data.2.1⟩
    · exact (boxes_of h3).inside u hu

theorem place_zero {file : Bytes} {boxes : List Mdat.T} (h : Boxes file boxes) : place boxes 0 0 = 0 := by
  refine Movie.place_none _ _ _ ?_
  rintro ⟨u, hu, h1, h2⟩
  have := (h.inside u hu).1
  omega

theorem place_same : ∀ (boxes : List Mdat.T) (acc : Nat) (u : Mdat.T) (b o : Nat), u ∈ boxes →
    List.Pairwise (fun a b : Mdat.T => a.dataOffset + a.dataSize ≤ b.dataOffset) boxes →
    u.dataOffset ≤ b → b + o < u.dataOffset + u.dataSize → place boxes acc (b + o) = place boxes acc b + o
  | [], _, _, _, _, hu, _, _, _ => by simp at hu
  | t :: ts, acc, u, b, o, hu, hp, h1, h2 => by
    rcases List.mem_cons.mp hu with rfl | hu
    · simp only [place]
      rw [if_pos ⟨by omega, by omega⟩, if_pos ⟨by omega, by omega⟩]
      omega
    · have := (List.pairwise_cons.mp hp).1 u hu
      simp only [place]
      rw [if_neg (by omega), if_neg (by omega), place_same ts _ u b o hu (List.pairwise_cons.mp hp).2 h1 h2]

theorem total_le {file : Bytes} : ∀ (ms : List Mdat.T) (lo : Nat),
    (∀ t ∈ ms, lo ≤ t.dataOffset ∧ t.dataOffset + t.dataSize ≤ file.length) →
    List.Pairwise (fun a b : Mdat.T => a.dataOffset + a.dataSize ≤ b.dataOffset) ms →
    lo ≤ file.length → lo + total ms ≤ file.length
  | [], _, _, _, h => by simpa [total] using h
  | t :: ms, lo, h1, h2, _ => by
    have hh := h1 t (by simp)
    have := total_le ms (t.dataOffset + t.dataSize) (fun u hu => ⟨(List.pairwise_cons.mp h2).1 u hu, (h1 u (by simp [hu])).2⟩)
      (List.pairwise_cons.mp h2).2 hh.2
    have e : total (t :: ms) = t.dataSize + total ms := by simp [total]
    rw [e]; omega

theorem copy_ok {file : Bytes} (hfile : file.length < 2 ^ 31) {boxes : List Mdat.T} (hb : Boxes file boxes) {m : Mdat.T}
    (hm : Mdat.Holds m (allData file boxes)) {o n : Nat} (hn : 0 < n) (hw : Within boxes o n) :
    place boxes 0 o < 2 ^ 31 ∧ Mdat.copyData m (place boxes 0 o) n = .ok ((file.drop o).take n) := by
  obtain ⟨u, hu, h1, h2⟩ := hw
  have hall : ∀ t ∈ boxes, t.dataOffset + t.dataSize ≤ file.length := fun t ht => (hb.inside t ht).2.2
  have hx := Movie.place_bytes file boxes hall [] 0 o (fun _ _ => Nat.zero_le _) hb.apart u hu h1 n hn h2
  simp only [List.length_nil, List.nil_append] at hx
  have hl : (allData file boxes).length = total boxes := Movie.flatMap_total file boxes hall
  have hpl := Movie.place_lt boxes 0 o ⟨u, hu, h1, by omega⟩
  have hbig := total_le (file := file) boxes 0 (fun t ht => ⟨Nat.zero_le _, hall t ht⟩) hb.apart (Nat.zero_le _)
  refine ⟨by omega, ?_⟩
  rw [Mdat.c24_copy_delivers hm (by omega) _ n hn hx.1 (by omega) (by have := hall u hu; omega)]
  exact congrArg Res.ok hx.2

theorem placed_id (boxes : List Mdat.T) (a : Item) : (placed boxes a).id = a.id := by
  unfold placed; split <;> rfl

theorem find_placed (boxes : List Mdat.T) (l : List Item) (idat : Option Bytes) (refs : Iref.S) (m : Option Mdat.T) {id : Nat} {b : Item}
    (h : l.find? (fun b => b.id = id) = some b) :
    find ⟨l.map (placed boxes), idat, refs, m⟩ id = .ok (placed boxes b) := by
  unfold find
  have : (l.map (placed boxes)).find? (fun a => a.id = id) = some (placed boxes b) := by
    rw [List.find?_map]
    have e : (fun a : Item => decide (a.id = id)) ∘ placed boxes = fun a => decide (a.id = id) := by
      funext a; simp only [Function.comp_apply, placed_id]
    rw [e, h]
    rfl
  rw [show (⟨l.map (placed boxes), idat, refs, m⟩ : S).items = l.map (placed boxes) from rfl, this]

theorem target_ok (boxes : List Mdat.T) (f : File) (idat : Option Bytes) (refs : Iref.S) (m : Option Mdat.T) {a b : Item} {k : Nat}
    (hr : Iref.getReferences refs a.id typeIloc = .ok (f.refs a.id)) (hs : ∀ i ∈ f.refs a.id, i < 65536)
    (h1 : 1 ≤ k) (h2 : k < 65536) (h : f.target a k = some b) :
    target ⟨f.items.map (placed boxes), idat, refs, m⟩ a k = .ok (placed boxes b) := by
  unfold File.target at h
  cases e : (f.refs a.id)[k - 1]? with
  | none => rw [e] at h; cases h
  | some i =>
    rw [e] at h
    have hi := hs i (List.mem_of_getElem? e)
    have hk := (List.getElem?_eq_some_iff.mp e).1
    unfold target Iref.getReference
    have hw : k % 65536 = k := Nat.mod_eq_of_lt h2
    rw [hw]
    simp only [hr, Res.bind]
    rw [if_neg (by omega), if_neg (by omega), e]
    simp only []
    rw [Nat.mod_eq_of_lt hi]
    exact find_placed boxes _ _ _ _ h

/-- The piece of an extent, by the format. -/
def piece (n : Nat) (f : File) (a : Item) (e : Extent) : Option Bytes :=
  (if a.method = 0 then some f.bytes
   else if a.method = 1 then some f.idat
   else if a.method = 2 then (f.target a e.index).bind (means n f)
   else none).bind fun src =>
  if e.length = 0 then (if a.base + e.offset = 0 then some src else none)
  else cut src (a.base + e.offset) e.length

theorem means_succ (n : Nat) (f : File) (a : Item) : means (n + 1) f a = join (piece n f a) (a.extents.getD []) := rfl

theorem shiftRight_zero {n : Nat} (h : n < 4294967296) : n >>> 32 = 0 := by
  rw [Nat.shiftRight_eq_div_pow]
  exact Nat.div_eq_of_lt (by omega)

theorem idatGet_ok {d : Bytes} (hd : d.length < 4294967296) {o n : Nat} (h : o + n ≤ d.length) : Meta.idatGet d o n = .ok ((d.drop o).take n) := by
  unfold Meta.idatGet
  rw [Nat.mod_eq_of_lt (show o < 4294967296 by omega), if_neg (by omega), if_pos h]

/-- Reading an item, given that the media data box holds the data of all boxes of the file. -/
theorem read_ok (f : File) (hfile : f.bytes.length < 2 ^ 31) {boxes : List Mdat.T} (hb : Boxes f.bytes boxes) {m : Mdat.T}
    (hm : Mdat.Holds m (allData f.bytes boxes)) (idat : Option Bytes) (refs : Iref.S)
    (hd : ∀ a ∈ f.items, a.method = 1 → idat = some f.idat) (hdl : f.idat.length < 2 ^ 32)
    (hr : ∀ a ∈ f.items, a.method = 2 → Iref.getReferences refs a.id typeIloc = .ok (f.refs a.id) ∧ ∀ i ∈ f.refs a.id, i < 65536) :
    ∀ (n : Nat) (a : Item) (D : Bytes), a ∈ f.items → Proper f boxes n a → means n f a = some D →
      getData n ⟨f.items.map (placed boxes), idat, refs, some m⟩ (placed boxes a) = .ok D := by
  intro n
  induction n with
  | zero => intro a D _ hp _; exact hp.elim
  | succ n ih =>
    intro a D ha hp hD
    obtain ⟨h0, hlen, hk⟩ := hp
    have hDl := hlen D hD
    rw [means_succ] at hD
    obtain ⟨s, es⟩ : ∃ s : S, s = ⟨f.items.map (placed boxes), idat, refs, some m⟩ := ⟨_, rfl⟩
    rw [← es]
    rcases hk with ⟨hm0, hL⟩ | ⟨hm1, hbase⟩ | ⟨hm2, hbase, hidx⟩
    · -- in the file
      have ep : placed boxes a = { a with
          base := place boxes 0 a.base, extents := a.extents.map fun es => es.map (placedExtent boxes) } := by
        unfold placed; rw [if_pos ⟨hm0, h0⟩]
      have ee : (placed boxes a).extents.getD [] = (a.extents.getD []).map (placedExtent boxes) := by
        rw [ep]; cases a.extents <;> rfl
      have em : (placed boxes a).method = 0 := by rw [ep]; exact hm0
      have ed : (placed boxes a).dref = 0 := by rw [ep]; exact h0
      have eb : (placed boxes a).base = place boxes 0 a.base := by rw [ep]
      unfold getData
      rw [if_neg (by rw [ed]; omega), if_neg (by rw [em]; omega), ee, eb]
      have key : ∀ e, ∀ x, piece n f a e = some x → e.length ≠ 0 →
          x.length = e.length ∧ x = (f.bytes.drop (a.base + e.offset)).take e.length ∧ e.length < 4294967296 := by
        intro e x hx hne
        unfold piece at hx
        rw [if_pos hm0] at hx
        simp only [Option.bind_some] at hx
        rw [if_neg hne] at hx
        obtain ⟨c1, c2, c3⟩ := cut_some hx
        exact ⟨c3, c2, by omega⟩
      have hlenOf : ∀ e, e.length ≠ 0 → e.length < 4294967296 → ∀ get, lengthOf get s (placed boxes a) (placedExtent boxes e) = .ok e.length := by
        intro e hne hlt get
        unfold lengthOf
        rw [if_neg (by simpa [placedExtent] using hne), if_neg (by simpa [placedExtent] using shiftRight_zero hlt)]
        rfl
      have hpiece : ∀ e base' n' get, pieceOf get s (placed boxes a) base' (placedExtent boxes e) n' =
          Mdat.copyData m w64(place boxes 0 e.offset + base') n' := by
        intro e base' n' get
        unfold pieceOf
        rw [if_pos em, es]
        rfl
      rcases hL with ⟨hb0, hw, hone⟩ | ⟨u, hu, hub, hfirst, hw⟩
      · rw [hb0, place_zero hb]
        have step : ∀ e ∈ a.extents.getD [], ∀ x, piece n f a e = some x →
            x.length = e.length ∧ e.length ≠ 0 ∧ e.length < 4294967296 ∧ place boxes 0 e.offset < 2 ^ 31 ∧
            Mdat.copyData m (place boxes 0 e.offset) e.length = .ok x := by
          intro e he x hx
          obtain ⟨hne, hwi⟩ := hw e he
          obtain ⟨k1, k2, k3⟩ := key e x hx hne
          obtain ⟨c1, c2⟩ := copy_ok hfile hb hm (Nat.pos_of_ne_zero hne) hwi
          rw [hb0, Nat.zero_add] at k2
          exact ⟨k1, hne, k3, c1, by rw [c2, k2]⟩
        refine loop_first _ (g := piece n f a) ?_ ?_ hD (by omega)
        · intro e he x hx
          obtain ⟨k1, hne, k3, c1, c2⟩ := step e (List.mem_of_mem_head? he) x hx
          rw [k1, hlenOf e hne k3, hpiece]
          refine ⟨rfl, ?_⟩
          rw [Nat.add_zero, Nat.mod_eq_of_lt (by omega), c2]
        · intro e he e' he' x hx
          rcases hone with hone | ⟨e1, t, q1, q2, q3⟩
          · exfalso
            have := List.length_pos_of_mem he'
            rw [List.length_tail] at this
            omega
          · rw [he] at q1
            injection q1 with q1
            subst q1
            have ht : t ∈ boxes := List.mem_of_mem_head? q2
            have hz : place boxes 0 e.offset = 0 := by
              cases boxes with
              | nil => cases q2
              | cons t0 ts =>
                injection q2 with q2
                subst q2
                have := (hb.inside t0 (by simp)).2.1
                simp only [place]
                rw [if_pos ⟨by omega, by omega⟩]
                omega
            obtain ⟨k1, hne, k3, c1, c2⟩ := step e' (List.mem_of_mem_tail he') x hx
            rw [k1, hlenOf e' hne k3, hpiece]
            refine ⟨rfl, ?_⟩
            rw [show (placedExtent boxes e).offset = 0 from hz]
            rw [Nat.mod_eq_of_lt (by omega : place boxes 0 e'.offset + (0 + (18446744073709551616 - 0)) % 18446744073709551616 < 18446744073709551616)]
            exact c2
      · have hbu : ∀ e ∈ a.extents.getD [], ∀ x, piece n f a e = some x →
            x.length = e.length ∧ e.length ≠ 0 ∧ e.length < 4294967296 ∧ place boxes 0 e.offset = e.offset ∧
            place boxes 0 a.base + e.offset < 2 ^ 31 ∧ Mdat.copyData m (place boxes 0 a.base + e.offset) e.length = .ok x := by
          intro e he x hx
          obtain ⟨hne, hin, hno⟩ := hw e he
          obtain ⟨k1, k2, k3⟩ := key e x hx hne
          obtain ⟨c1, c2⟩ := copy_ok hfile hb hm (Nat.pos_of_ne_zero hne) (o := a.base + e.offset) ⟨u, hu, by omega, by omega⟩
          rw [place_same boxes 0 u a.base e.offset hu hb.apart hub (by omega)] at c1 c2
          refine ⟨k1, hne, k3, Movie.place_none _ _ _ ?_, c1, by rw [c2, k2]⟩
          rintro ⟨v, hv, v1, v2⟩
          exact hno 1 (by omega) ⟨v, hv, v1, by omega⟩
        refine loop_first _ (g := piece n f a) ?_ ?_ hD (by omega)
        · intro e he x hx
          obtain ⟨k1, hne, k3, p1, c1, c2⟩ := hbu e (List.mem_of_mem_head? he) x hx
          rw [k1, hlenOf e hne k3, hpiece, p1]
          refine ⟨rfl, ?_⟩
          rw [Nat.add_comm, Nat.mod_eq_of_lt (by omega), c2]
        · intro e he e' he' x hx
          obtain ⟨k1, hne, k3, p1, c1, c2⟩ := hbu e' (List.mem_of_mem_tail he') x hx
          have ho := hfirst e he
          rw [k1, hlenOf e' hne k3, hpiece, p1]
          refine ⟨rfl, ?_⟩
          rw [show (placedExtent boxes e).offset = 0 by rw [placedExtent, ho]; exact place_zero hb]
          rw [show (e'.offset + (place boxes 0 a.base + (18446744073709551616 - 0)) % 18446744073709551616) % 18446744073709551616 =
            place boxes 0 a.base + e'.offset by omega]
          exact c2
    · -- in the item data box
      have ep : placed boxes a = a := by unfold placed; rw [if_neg (by omega)]
      have hid := hd a ha hm1
      rw [ep]
      unfold getData
      rw [if_neg (by omega), if_neg (by rw [es, hid]; simp)]
      have step : ∀ e ∈ a.extents.getD [], ∀ x, piece n f a e = some x → ∀ base', lengthOf (getData n s) s a (id e) = .ok x.length ∧
          pieceOf (getData n s) s a base' (id e) x.length = .ok x := by
        intro e _ x hx base'
        unfold piece at hx
        rw [if_neg (by omega), if_pos hm1] at hx
        simp only [Option.bind_some, hbase, Nat.zero_add] at hx
        have hg : s.idat.getD [] = f.idat := by rw [es, hid]; rfl
        have hpo : ∀ k, pieceOf (getData n s) s a base' (id e) k = Meta.idatGet f.idat e.offset k := by
          intro k
          unfold pieceOf
          rw [if_neg (by omega), if_pos hm1, hg]
          rfl
        rw [hpo]
        unfold lengthOf
        simp only [id]
        by_cases hl : e.length = 0
        · rw [if_pos hl] at hx
          rw [if_pos hl]
          by_cases ho : e.offset = 0
          · rw [if_pos ho] at hx
            injection hx with hx
            subst hx
            rw [idatGet_ok (by omega) (by omega), if_neg (by omega), if_pos hm1, hg]
            simp [Res.bind, ho]
          · rw [if_neg ho] at hx; cases hx
        · rw [if_neg hl] at hx
          obtain ⟨c1, c2, c3⟩ := cut_some hx
          rw [if_neg hl, if_neg (by rw [shiftRight_zero (by omega)]; simp), c3, idatGet_ok (by omega) (by omega), c2]
          exact ⟨rfl, rfl⟩
      have := loop_first (a.extents.getD []) (base := a.base) (r := id) (g := piece n f a) (get := getData n s) (s := s) (a := a)
        (fun e he x hx => step e (List.mem_of_mem_head? he) x hx _) (fun e he e' he' x hx => step e' (List.mem_of_mem_tail he') x hx _) hD (by omega)
      rw [List.map_id] at this
      exact this
    · -- in other items
      have ep : placed boxes a = a := by unfold placed; rw [if_neg (by omega)]
      rw [ep]
      unfold getData
      rw [if_neg (by omega), if_neg (by omega)]
      have step : ∀ e ∈ a.extents.getD [], ∀ x, piece n f a e = some x → ∀ base', lengthOf (getData n s) s a (id e) = .ok x.length ∧
          pieceOf (getData n s) s a base' (id e) x.length = .ok x := by
        intro e he x hx base'
        obtain ⟨i1, i2, i3⟩ := hidx e he
        unfold piece at hx
        rw [if_neg (by omega), if_neg (by omega), if_pos hm2] at hx
        cases et : f.target a e.index with
        | none => rw [et] at hx; cases hx
        | some b =>
          rw [et] at hx
          simp only [Option.bind_some, hbase, Nat.zero_add] at hx
          cases es' : means n f b with
          | none => rw [es'] at hx; cases hx
          | some src =>
            rw [es'] at hx
            simp only [Option.bind_some] at hx
            have hpb := i3 b et
            have hbm : b ∈ f.items := by
              unfold File.target at et
              cases e2 : (f.refs a.id)[e.index - 1]? with
              | none => rw [e2] at et; cases et
              | some i => rw [e2] at et; exact List.mem_of_find?_eq_some et
            have hget := ih b src hbm hpb es'
            rw [← es] at hget
            have hsl : src.length < 4294967296 := by
              cases n with
              | zero => exact hpb.elim
              | succ k => exact hpb.2.1 src es'
            obtain ⟨r1, r2⟩ := hr a ha hm2
            have ht := target_ok boxes f idat refs (some m) r1 r2 i1 i2 et
            rw [← es] at ht
            have hpo : ∀ k, e.offset + k ≤ src.length → pieceOf (getData n s) s a base' (id e) k = .ok ((src.drop e.offset).take k) := by
              intro k hk
              unfold pieceOf
              rw [if_neg (by omega), if_neg (by omega), if_pos hm2]
              simp only [id, ht, Res.bind, hget]
              rw [if_neg (by omega), if_pos hk]
            unfold lengthOf
            simp only [id]
            by_cases hl : e.length = 0
            · rw [if_pos hl] at hx
              rw [if_pos hl]
              by_cases ho : e.offset = 0
              · rw [if_pos ho] at hx
                injection hx with hx
                subst hx
                have hh := hpo src.length (by omega)
                simp only [id] at hh
                rw [hh, if_neg (by omega), if_neg (by omega), if_pos hm2, ht]
                simp [Res.bind, ho, hget]
              · rw [if_neg ho] at hx; cases hx
            · rw [if_neg hl] at hx
              obtain ⟨c1, c2, c3⟩ := cut_some hx
              have hh := hpo e.length c1
              simp only [id] at hh
              rw [if_neg hl, if_neg (by rw [shiftRight_zero (by omega)]; simp), c3, hh, c2]
              exact ⟨rfl, rfl⟩
      have := loop_first (a.extents.getD []) (base := a.base) (r := id) (g := piece n f a) (get := getData n s) (s := s) (a := a)
        (fun e he x hx => step e (List.mem_of_mem_head? he) x hx _) (fun e he e' he' x hx => step e' (List.mem_of_mem_tail he') x hx _) hD (by omega)
      rw [List.map_id] at this
      exact this

/-! ## Reading a file -/

/-- **C84, in part.** A file with media data boxes is opened and the boxes are merged. Then every item whose extents are located as `Located` says, or
that lies in the item data box, or that is made of such items, is read as the file says. Missing: the other ways to give places
(`c84_not_two_places`, `c84_not_offset_like_place`), a base for the item data box and for other items, which is ignored, and files of 2 GiB and more. -/
theorem c84_open_partial (f : File) (hfile : f.bytes.length < 2 ^ 31) (junk : Nat → Nat → UInt8) (first : Mdat.T) (more : List Mdat.T)
    (ho : InOrder f.bytes 0 (first :: more)) (idat : Option Bytes) (refs : Iref.S)
    (hd : ∀ a ∈ f.items, a.method = 1 → idat = some f.idat) (hdl : f.idat.length < 2 ^ 32)
    (hr : ∀ a ∈ f.items, a.method = 2 → Iref.getReferences refs a.id (fcc 'i' 'l' 'o' 'c') = .ok (f.refs a.id) ∧ ∀ i ∈ f.refs a.id, i < 65536) :
    ∃ m items, merge junk first more f.items = .ok (m, items) ∧
      ∀ n (i : Nat) a D, f.items[i]? = some a → Proper f (first :: more) n a → means n f a = some D →
        ∃ a', items[i]? = some a' ∧ a'.id = a.id ∧ getData n ⟨items, idat, refs, some m⟩ a' = .ok D := by
  obtain ⟨m, h1, h2⟩ := merge_ok f.bytes hfile junk f.items first more ho
  refine ⟨m, _, h1, fun n i a D hi hp hD => ⟨placed (first :: more) a, ?_, placed_id _ _, ?_⟩⟩
  · rw [List.getElem?_map, hi]; rfl
  · exact read_ok f hfile (boxes_of ho) h2 idat refs hd hdl hr n a D (List.mem_of_getElem? hi) hp hD

theorem bind_mono {α β : Type} {x y : Res α} {k k' : α → Res β} {v : β} (h : x.bind k = .ok v)
    (hx : ∀ u, x = .ok u → y = .ok u) (hk : ∀ u, k u = .ok v → k' u = .ok v) : y.bind k' = .ok v := by
  cases x with
  | ok u => rw [hx u rfl]; exact hk u h
  | err _ => cases h
  | ub => cases h

theorem loop_mono {get get' : Item → Res Bytes} {s : S} {a : Item} (hg : ∀ b d, get b = .ok d → get' b = .ok d) :
    ∀ (es : List Extent) (first : Bool) (base : Nat) (acc D : Bytes), loop get s a first base acc es = .ok D →
      loop get' s a first base acc es = .ok D
  | [], _, _, _, _, h => h
  | e :: es, first, base, acc, D, h => by
    unfold loop at h ⊢
    refine bind_mono h ?_ fun n h => ?_
    · intro u hu
      unfold lengthOf at hu ⊢
      split
      · next hl =>
        rw [if_pos hl] at hu
        refine bind_mono hu ?_ fun _ h => h
        intro v hv
        split
        · next hm => rw [if_pos hm] at hv; exact hv
        · next hm =>
          rw [if_neg hm] at hv
          split
          · next hm => rw [if_pos hm] at hv; exact hv
          · next hm =>
            rw [if_neg hm] at hv
            split
            · next hm =>
              rw [if_pos hm] at hv
              exact bind_mono hv (fun _ h => h) fun b hb => bind_mono hb (hg b) fun _ h => h
            · next hm => rw [if_neg hm] at hv; exact hv
      · next hl => rw [if_neg hl] at hu; exact hu
    · split
      · next hl => rw [if_pos hl] at h; cases h
      · next hl =>
        rw [if_neg hl] at h
        refine bind_mono h ?_ fun bs h => loop_mono hg es _ _ _ _ h
        intro u hu
        unfold pieceOf at hu ⊢
        split
        · next hm => rw [if_pos hm] at hu; exact hu
        · next hm =>
          rw [if_neg hm] at hu
          split
          · next hm => rw [if_pos hm] at hu; exact hu
          · next hm =>
            rw [if_neg hm] at hu
            split
            · next hm =>
              rw [if_pos hm] at hu
              exact bind_mono hu (fun _ h => h) fun b hb => bind_mono hb (hg b) fun _ h => h
            · next hm => rw [if_neg hm] at hu; exact hu

/-- What is read does not depend on how deep the calls may go, once it is deep enough. -/
theorem c84_deeper (s : S) (n : Nat) : ∀ (a : Item) (D : Bytes) (k : Nat), getData n s a = .ok D → getData (n + k) s a = .ok D := by
  induction n with
  | zero => intro a D k h; cases h
  | succ n ih =>
    intro a D k h
    rw [show n + 1 + k = (n + k) + 1 by omega]
    unfold getData at h ⊢
    split
    · next hm => rw [if_pos hm] at h; cases h
    · next hm =>
      rw [if_neg hm] at h
      split
      · next hm => rw [if_pos hm] at h; cases h
      · next hm => rw [if_neg hm] at h; exact loop_mono (fun b d hb => ih b d k hb) _ _ _ _ _ h

/-! ## What is read otherwise -/

theorem shiftRight_ne {n : Nat} (h : n < 4294967296) : ¬ n >>> 32 ≠ 0 := by rw [shiftRight_zero h]; simp

/-- The second of two places in the file is read from where the first is taken off it. `M` is the media data. -/
theorem c84_not_two_places (n : Nat) (s : S) (a : Item) (e1 e2 : Extent) (m : Mdat.T) (M : Bytes) (hm : s.mdat = some m) (hM : Mdat.Holds m M)
    (hl : M.length < 2 ^ 31) (h0 : a.method = 0) (h1 : a.dref = 0) (hb : a.base = 0) (he : a.extents = some [e1, e2])
    (hn : e1.length ≠ 0 ∧ e2.length ≠ 0) (hle : e1.offset ≤ e2.offset) (hin : e1.offset + e1.length ≤ M.length ∧ e2.offset + e2.length ≤ M.length) :
    getData (n + 1) s a = .ok ((M.drop e1.offset).take e1.length ++ (M.drop (e2.offset - e1.offset)).take e2.length) := by
  obtain ⟨hn1, hn2⟩ := hn
  obtain ⟨hi1, hi2⟩ := hin
  unfold getData
  rw [if_neg (by omega), if_neg (by omega), he, hb]
  have hlen : ∀ e : Extent, e.length ≠ 0 → e.length ≤ M.length → lengthOf (getData n s) s a e = .ok e.length := by
    intro e h h'
    unfold lengthOf
    rw [if_neg h, if_neg (shiftRight_ne (by omega))]
  have hp : ∀ (e : Extent) (base o : Nat), e.length ≠ 0 → w64(e.offset + base) = o → o + e.length ≤ M.length →
      pieceOf (getData n s) s a base e e.length = .ok ((M.drop o).take e.length) := by
    intro e base o h h' h''
    unfold pieceOf
    rw [if_pos h0, hm]
    simp only []
    rw [h', Mdat.c24_copy_delivers hM (by omega) o e.length (by omega) h'' (by omega) (by omega)]
  show loop (getData n s) s a true 0 [] [e1, e2] = _
  have l1 : ((M.drop e1.offset).take e1.length).length = e1.length := by rw [List.length_take, List.length_drop]; omega
  rw [loop, hlen e1 hn1 (by omega)]
  show (if 0 + e1.length ≥ 4294967296 then Res.ub else _) = _
  rw [if_neg (by omega), hp e1 0 e1.offset hn1 (by omega) hi1]
  show loop (getData n s) s a false ((0 + (18446744073709551616 - e1.offset)) % 18446744073709551616) ([] ++ (M.drop e1.offset).take e1.length) [e2] = _
  rw [loop, hlen e2 hn2 (by omega)]
  show (if ([] ++ (M.drop e1.offset).take e1.length).length + e2.length ≥ 4294967296 then Res.ub else _) = _
  rw [List.nil_append, l1, if_neg (by omega), hp e2 _ (e2.offset - e1.offset) hn2 (by omega) (by omega)]
  rfl

/-- An offset from a base that is also a number of a byte in the media data box is taken for one: the file says `base + e.offset`, and the byte that is
read is `t.dataOffset` before. -/
theorem c84_not_offset_like_place (n : Nat) (f : File) (hfile : f.bytes.length < 2 ^ 31) (junk : Nat → Nat → UInt8) (t : Mdat.T)
    (ho : InOrder f.bytes 0 [t]) (a : Item) (e : Extent) (h0 : a.method = 0) (h1 : a.dref = 0) (he : a.extents = some [e]) (hn : e.length ≠ 0)
    (hb : t.dataOffset ≤ a.base) (hlike : t.dataOffset ≤ e.offset) (hin : a.base + e.offset + e.length ≤ t.dataOffset + t.dataSize)
    (hf : f.items = [a]) (idat : Option Bytes) (refs : Iref.S) :
    means (n + 1) f a = some ((f.bytes.drop (a.base + e.offset)).take e.length) ∧
    ∃ m a', merge junk t [] f.items = .ok (m, [a']) ∧
      getData (n + 1) ⟨[a'], idat, refs, some m⟩ a' = .ok ((f.bytes.drop (a.base + e.offset - t.dataOffset)).take e.length) := by
  have hbox := boxes_of ho
  obtain ⟨m, g1, g2⟩ := merge_ok f.bytes hfile junk f.items t [] ho
  obtain ⟨i1, i2, i3⟩ := hbox.inside t (by simp)
  constructor
  · rw [means_succ, he]
    have hc : cut f.bytes (a.base + e.offset) e.length = some ((f.bytes.drop (a.base + e.offset)).take e.length) := if_pos (by omega)
    simp [join, piece, h0, hn, hc]
  · refine ⟨m, placed [t] a, by rw [g1, hf]; rfl, ?_⟩
    have e1 : placed [t] a = { a with base := a.base - t.dataOffset, extents := some [{ e with offset := e.offset - t.dataOffset }] } := by
      unfold placed
      rw [if_pos ⟨h0, h1⟩, he]
      simp only [placedExtent, place, Option.map_some, List.map_cons, List.map_nil]
      rw [if_pos (by omega), if_pos (by omega)]
      simp
    obtain ⟨c1, c2⟩ := copy_ok hfile hbox g2 (o := a.base + e.offset - t.dataOffset) (n := e.length) (by omega)
      ⟨t, by simp, by omega, by omega⟩
    have c3 : place [t] 0 (a.base + e.offset - t.dataOffset) = a.base + e.offset - t.dataOffset - t.dataOffset := by
      simp only [place]
      rw [if_pos (by omega)]
      omega
    rw [c3] at c1 c2
    rw [e1]
    unfold getData
    rw [if_neg (by simp [h1]), if_neg (by simp [h0])]
    simp only [Option.getD_some]
    rw [loop]
    have hle : ∀ s' a', lengthOf (getData n s') s' a' { e with offset := e.offset - t.dataOffset } = .ok e.length := by
      intro s' a'
      unfold lengthOf
      rw [if_neg hn, if_neg (shiftRight_ne (by simp only; omega))]
    rw [hle]
    simp only [Res.bind, List.length_nil]
    rw [if_neg (by omega)]
    unfold pieceOf
    rw [if_pos h0]
    simp only []
    rw [show (e.offset - t.dataOffset + (a.base - t.dataOffset)) % 18446744073709551616 = a.base + e.offset - t.dataOffset - t.dataOffset by omega, c2]
    simp [loop]

/-- The base is not used for the item data box: whatever it is, the same bytes are read. -/
theorem c84_not_base_of_item_data (n : Nat) (s : S) (a : Item) (base : Nat) (h : a.method = 1) :
    getData n s { a with base := base } = getData n s a := by
  cases n with
  | zero => rfl
  | succ n =>
    have hl : ∀ (es : List Extent) (fi fi' : Bool) (b b' : Nat) (acc : Bytes),
        loop (getData n s) s { a with base := base } fi b acc es = loop (getData n s) s a fi' b' acc es := by
      intro es
      induction es with
      | nil => intro fi fi' b b' acc; rfl
      | cons e es ih =>
        intro fi fi' b b' acc
        have e1 : lengthOf (getData n s) s { a with base := base } e = lengthOf (getData n s) s a e := by
          unfold lengthOf
          simp [h]
        have e2 : ∀ k, pieceOf (getData n s) s { a with base := base } b e k = pieceOf (getData n s) s a b' e k := by
          intro k
          unfold pieceOf
          simp [h]
        rw [loop, loop, e1]
        congr 1
        funext k
        split
        · rfl
        · rw [e2]
          congr 1
          funext bs
          exact ih _ _ _ _ _
    unfold getData
    simp only [hl (a.extents.getD []) true true base a.base []]

/-- An item in the media data box of a file, in a meta box that was not given it, is refused. Those in `meco` are such: MP4Movies.c 279-342 looks only at the
meta box. -/
theorem c84_not_without_media_data (n : Nat) (s : S) (a : Item) (e : Extent) (es : List Extent) (hm : s.mdat = none) (h0 : a.method = 0)
    (h1 : a.dref = 0) (he : a.extents = some (e :: es)) (hl : e.length < 2 ^ 32) : getData (n + 1) s a = .err .badParam := by
  unfold getData
  rw [if_neg (by omega), if_neg (by omega), he]
  simp only [Option.getD_some]
  rw [loop]
  unfold lengthOf pieceOf
  by_cases hz : e.length = 0
  · simp [hz, h0, hm, Res.bind]
  · rw [if_neg hz, if_neg (shiftRight_ne (by omega))]
    simp only [Res.bind, List.length_nil]
    rw [if_neg (by omega)]
    simp [h0, hm]

/-- Items made of each other without end: however deep the calls may go, they go deeper. -/
theorem c84_not_without_end (s : S) (C : Item → Prop)
    (hC : ∀ a, C a → a.method = 2 ∧ ∃ e es, a.extents = some (e :: es) ∧ e.length < 2 ^ 32 ∧ ∃ b, target s a e.index = .ok b ∧ C b) :
    ∀ n a, C a → getData n s a = .ub := by
  intro n
  induction n with
  | zero => intro a _; rfl
  | succ n ih =>
    intro a ha
    obtain ⟨h0, e, es, he, hl, b, ht, hb⟩ := hC a ha
    have hub := ih b hb
    unfold getData
    rw [if_neg (by omega), if_neg (by omega), he]
    simp only [Option.getD_some]
    rw [loop]
    unfold lengthOf pieceOf
    by_cases hz : e.length = 0
    · simp [hz, h0, ht, hub, Res.bind]
    · rw [if_neg hz, if_neg (shiftRight_ne (by omega))]
      simp only [Res.bind, List.length_nil]
      rw [if_neg (by omega)]
      simp [h0, ht, hub]

/-- A piece of another item that begins after its end is copied from behind the data: the difference of the lengths is that of unsigned numbers. -/
theorem c84_not_past_the_end (n : Nat) (s : S) (a b : Item) (e : Extent) (es : List Extent) (d : Bytes) (h0 : a.method = 2)
    (he : a.extents = some (e :: es)) (ht : target s a e.index = .ok b) (hd : getData n s b = .ok d) (hn : e.length ≠ 0) (hl : e.length < 2 ^ 32)
    (ho : d.length < e.offset) (ho' : e.offset < 2 ^ 32) : getData (n + 1) s a = .ub := by
  unfold getData
  rw [if_neg (by omega), if_neg (by omega), he]
  simp only [Option.getD_some]
  rw [loop]
  unfold lengthOf pieceOf
  rw [if_neg hn, if_neg (shiftRight_ne (by omega))]
  simp only [Res.bind, List.length_nil]
  rw [if_neg (by omega), if_neg (by omega), if_neg (by omega), if_pos h0, ht]
  simp only [hd]
  rw [if_neg (by omega), if_neg (by omega)]

/-- One that is in it but too long is refused. -/
theorem c84_too_long (n : Nat) (s : S) (a b : Item) (e : Extent) (es : List Extent) (d : Bytes) (h0 : a.method = 2)
    (he : a.extents = some (e :: es)) (ht : target s a e.index = .ok b) (hd : getData n s b = .ok d) (hdl : d.length < 2 ^ 32) (hn : e.length ≠ 0)
    (hl : e.length < 2 ^ 32) (ho : e.offset ≤ d.length) (ho' : d.length < e.offset + e.length) : getData (n + 1) s a = .err .badData := by
  unfold getData
  rw [if_neg (by omega), if_neg (by omega), he]
  simp only [Option.getD_some]
  rw [loop]
  unfold lengthOf pieceOf
  rw [if_neg hn, if_neg (shiftRight_ne (by omega))]
  simp only [Res.bind, List.length_nil]
  rw [if_neg (by omega), if_neg (by omega), if_neg (by omega), if_pos h0, ht]
  simp only [hd]
  rw [if_pos (by omega)]

/-- An extent of length 0 is the whole source, and with an offset it is refused, for each of the three kinds of sources. -/
theorem c84_offset_without_length (n : Nat) (s : S) (a : Item) (e : Extent) (es : List Extent) (he : a.extents = some (e :: es)) (hl : e.length = 0)
    (ho : e.offset ≠ 0)
    (h : (a.method = 0 ∧ a.dref = 0 ∧ ∃ m, s.mdat = some m ∧ m.dataSize < 2 ^ 32) ∨ (a.method = 1 ∧ s.idat ≠ none) ∨
      (a.method = 2 ∧ ∃ b d, target s a e.index = .ok b ∧ getData n s b = .ok d)) : getData (n + 1) s a = .err .badData := by
  unfold getData
  rw [if_neg (by omega), if_neg (by rintro ⟨h1, h2⟩; rcases h with h | h | h; · omega
                                    · exact h.2 h2
                                    · omega), he]
  simp only [Option.getD_some]
  rw [loop]
  have : lengthOf (getData n s) s a e = .err .badData := by
    unfold lengthOf
    rw [if_pos hl]
    rcases h with ⟨h1, _, m, h2, h3⟩ | ⟨h1, _⟩ | ⟨h1, b, d, h2, h3⟩
    · rw [if_pos h1, h2]
      simp only
      rw [if_neg (by rw [shiftRight_zero (by omega)]; simp)]
      simp [Res.bind, ho]
    · simp [h1, Res.bind, ho]
    · simp [h1, h2, h3, Res.bind, ho]
  rw [this]
  rfl

/-- An extent without an index, which stands for the first reference, is read before the block of references. -/
theorem c84_not_without_index (n : Nat) (s : S) (a : Item) (e : Extent) (es : List Extent) (v : Nat) (l : List Iref.Ref) (hr : s.refs = some (v, l))
    (h0 : a.method = 2) (he : a.extents = some (e :: es)) (hl : e.length < 2 ^ 32) (hi : e.index = 0) : getData (n + 1) s a = .ub := by
  have ht : target s a e.index = .ub := by
    unfold target Iref.getReference Iref.getReferences
    rw [hr, hi]
    cases h : l.find? (Iref.isRef a.id typeIloc) <;> simp [Res.bind, h]
  unfold getData
  rw [if_neg (by omega), if_neg (by omega), he]
  simp only [Option.getD_some]
  rw [loop]
  unfold lengthOf pieceOf
  by_cases hz : e.length = 0
  · simp [hz, h0, ht, Res.bind]
  · rw [if_neg hz, if_neg (shiftRight_ne (by omega))]
    simp only [Res.bind, List.length_nil]
    rw [if_neg (by omega)]
    simp [h0, ht]

/-! ## Writing -/

/-- The numbers in the items of the media data box all are in it, or too large for it to be moved there. -/
def Clear (up size : Nat) (l : List Item) : Prop := ∀ a ∈ l, a.method = 0 → a.dref = 0 →
  (a.base < size ∨ up + size ≤ a.base) ∧ ∀ e ∈ a.extents.getD [], e.offset < size ∨ up + size ≤ e.offset

theorem shift_back {up size x : Nat} (h : up + size < 2 ^ 31) (hx : x < size ∨ up + size ≤ x) :
    shift up (size + up) (-(up : Int)) (shift 0 size (up : Int) x) = x := by
  unfold shift
  rcases hx with hx | hx
  · rw [if_pos (show 0 ≤ x ∧ x < size by omega)]
    have : u64i ((x : Int) + (up : Int)) = x + up := by unfold u64i; omega
    rw [this, if_pos (by omega)]
    unfold u64i
    omega
  · rw [if_neg (show ¬ (0 ≤ x ∧ x < size) by omega), if_neg (by omega)]

theorem moved_back {up size : Nat} {l : List Item} (h : up + size < 2 ^ 31) (hc : Clear up size l) :
    moved up (size + up) (-(up : Int)) (moved 0 size (up : Int) l) = l := by
  unfold moved
  rw [List.map_map]
  conv => rhs; rw [← List.map_id l]
  refine List.map_congr_left fun a ha => ?_
  simp only [Function.comp_apply, id]
  by_cases h0 : a.method = 0 ∧ a.dref = 0
  · obtain ⟨c1, c2⟩ := hc a ha h0.1 h0.2
    have e1 : itemMoved 0 size (up : Int) a = { a with
        base := shift 0 size (up : Int) a.base
        extents := a.extents.map fun es => es.map fun e => { e with offset := shift 0 size (up : Int) e.offset } } := by
      unfold itemMoved; rw [if_pos h0]
    rw [e1]
    unfold itemMoved
    rw [if_pos h0]
    simp only [shift_back h c1]
    cases a with
    | mk id method dref base extents =>
      congr 1
      cases extents with
      | none => rfl
      | some es =>
        simp only [Option.map_some, List.map_map, Option.some.injEq]
        conv => rhs; rw [← List.map_id es]
        refine List.map_congr_left fun e he => ?_
        have := shift_back h (c2 e he)
        simp only [Function.comp_apply, this]
        rfl
  · have e1 : itemMoved 0 size (up : Int) a = a := by unfold itemMoved; rw [if_neg h0]
    rw [e1]
    unfold itemMoved
    rw [if_neg h0]

/-- **C84, writing.** A file with one media data box is written, its data at place `up`: the items that are put back afterwards, and those of the file when
it is opened again, are the ones that were there. -/
theorem c84_reopened (up : Nat) (mdat opened : Mdat.T) (l : List Item) (junk : Nat → Nat → UInt8) (h : up + mdat.dataSize < 2 ^ 31)
    (hc : Clear up mdat.dataSize l) (ho : opened.dataOffset = up) (hs : opened.dataSize = mdat.dataSize) :
    putBack up mdat (written up mdat l) = .ok l ∧ merge junk opened [] (written up mdat l) = .ok (opened, l) := by
  have hup : s32 up = (up : Int) := by unfold s32; rw [if_pos (by omega)]
  have e1 : (mdat.dataSize + up) % 18446744073709551616 = mdat.dataSize + up := Nat.mod_eq_of_lt (by omega)
  have e2 : up % 4294967296 = up := Nat.mod_eq_of_lt (by omega)
  constructor
  · unfold putBack written
    rw [if_neg (by omega), e1, hup, moved_back h hc]
  · unfold merge written
    rw [ho, hs, e2, if_neg (by omega), e1, hup, moved_back h hc]
    rfl

theorem join_none {g : Extent → Option Bytes} : ∀ {es : List Extent} (e : Extent), e ∈ es → g e = none → join g es = none
  | e0 :: es, e, he, h => by
    rcases List.mem_cons.mp he with rfl | he
    · rw [join, h]; rfl
    · rw [join, join_none e he h]
      cases g e0 <;> rfl

/-- In the file, both the base and the offset of an extent are counted from the beginning of the file: by the format it lies `up + base` bytes after its
data. -/
theorem c84_not_as_written (up : Nat) (mdat : Mdat.T) (l : List Item) (i : Nat) (a : Item) (e : Extent) (j : Nat) (h : up + mdat.dataSize < 2 ^ 31)
    (hi : l[i]? = some a) (h0 : a.method = 0) (h1 : a.dref = 0) (hj : (a.extents.getD [])[j]? = some e)
    (hb : a.base < mdat.dataSize) (he : e.offset < mdat.dataSize) :
    ∃ a' e', (written up mdat l)[i]? = some a' ∧ (a'.extents.getD [])[j]? = some e' ∧ e'.length = e.length ∧
      a'.base + e'.offset = (up + e.offset) + (up + a.base) := by
  have hup : s32 up = (up : Int) := by unfold s32; rw [if_pos (by omega)]
  have sh : ∀ x, x < mdat.dataSize → shift 0 mdat.dataSize (up : Int) x = up + x := by
    intro x hx
    unfold shift
    rw [if_pos (by omega)]
    unfold u64i
    omega
  refine ⟨itemMoved 0 mdat.dataSize (s32 up) a, { e with offset := up + e.offset }, ?_, ?_, rfl, ?_⟩
  · unfold written moved
    rw [List.getElem?_map, hi]; rfl
  · unfold itemMoved
    rw [if_pos ⟨h0, h1⟩, hup]
    cases hes : a.extents with
    | none => rw [hes] at hj; cases hj
    | some es =>
      rw [hes] at hj
      have hj : es[j]? = some e := hj
      simp only [Option.map_some, Option.getD_some, List.getElem?_map, hj, sh _ he]
  · unfold itemMoved
    rw [if_pos ⟨h0, h1⟩, hup]
    simp only [sh _ hb]
    omega

/-- And with the media data last, after as many bytes, no item of it has data. -/
theorem c84_not_readable_as_written (n up : Nat) (mdat : Mdat.T) (l : List Item) (i : Nat) (a : Item) (f : File) (h : up + mdat.dataSize < 2 ^ 31)
    (hf : f.bytes.length = up + mdat.dataSize) (hup : mdat.dataSize ≤ up) (hi : l[i]? = some a) (h0 : a.method = 0) (h1 : a.dref = 0)
    (hb : a.base < mdat.dataSize) (e : Extent) (j : Nat) (hj : (a.extents.getD [])[j]? = some e) (he : e.offset < mdat.dataSize) (hn : e.length ≠ 0) :
    ∃ a', (written up mdat l)[i]? = some a' ∧ means n f a' = none := by
  obtain ⟨a', e', g1, g2, g3, g4⟩ := c84_not_as_written up mdat l i a e j h hi h0 h1 hj hb he
  refine ⟨a', g1, ?_⟩
  have hm : a'.method = 0 := by
    unfold written moved at g1
    rw [List.getElem?_map, hi] at g1
    injection g1 with g1
    subst g1
    unfold itemMoved
    split <;> exact h0
  cases n with
  | zero => rfl
  | succ n =>
    rw [means_succ]
    refine join_none e' (List.mem_of_getElem? g2) ?_
    unfold piece
    rw [if_pos hm]
    simp only [Option.bind_some]
    rw [if_neg (by omega)]
    exact if_neg (by omega)

/-! ## Items made of other items -/

/-- The references of type `iloc` from an item. -/
def RefsAre (refs : Iref.S) (id : Nat) (ids : List Nat) : Prop :=
  ((Iref.ensure refs).2.find? (Iref.isRef id typeIloc) = none ∧ ids = []) ∨
  ∃ r, refs ≠ none ∧ (Iref.ensure refs).2.find? (Iref.isRef id typeIloc) = some r ∧ r.ids = ids ∧ ids ≠ []

theorem find_changeFirst {item type : Nat} {g : Iref.Ref → Iref.Ref} (hg : ∀ r, Iref.isRef item type (g r) = Iref.isRef item type r) :
    ∀ {l : List Iref.Ref} {r : Iref.Ref}, l.find? (Iref.isRef item type) = some r → (Iref.changeFirst item type g l).find? (Iref.isRef item type) = some (g r)
  | [], _, h => by cases h
  | x :: l, r, h => by
    unfold Iref.changeFirst
    by_cases hx : Iref.isRef item type x = true
    · rw [List.find?_cons_of_pos hx] at h
      injection h with h
      subst h
      rw [if_pos hx, List.find?_cons_of_pos (by rw [hg]; exact hx)]
    · rw [List.find?_cons_of_neg hx] at h
      rw [if_neg hx, List.find?_cons_of_neg hx, find_changeFirst hg h]

theorem RefsAre.add {refs : Iref.S} {id : Nat} {ids : List Nat} (h : RefsAre refs id ids) (to : Nat) (hl : ids.length < 65535) :
    ∃ refs', Iref.addReference refs id typeIloc to = .ok (refs', ids.length + 1) ∧ RefsAre refs' id (ids ++ [to]) := by
  obtain ⟨v, l, hv⟩ : ∃ v l, Iref.ensure refs = (v, l) := ⟨_, _, rfl⟩
  unfold RefsAre at h
  rw [hv] at h
  rcases h with ⟨h1, h2⟩ | ⟨r, h0, h1, h2, h3⟩
  · have h1 : l.find? (Iref.isRef id typeIloc) = none := h1
    subst h2
    refine ⟨Iref.addReferences (some (v, l)) id typeIloc [to], ?_, Or.inr ⟨⟨typeIloc, id, [to], v % 256 == 1⟩, ?_, ?_, rfl, by simp⟩⟩
    · unfold Iref.addReference
      rw [hv]
      simp only [Iref.getReferences, h1, Res.bind, List.length_nil]
      rfl
    · simp [Iref.addReferences, Iref.ensure]
    · simp only [Iref.addReferences, Iref.ensure, Option.getD_some, List.find?_append, h1]
      simp [Iref.isRef]
  · have h1 : l.find? (Iref.isRef id typeIloc) = some r := h1
    subst h2
    have hpos := List.length_pos_iff.mpr h3
    refine ⟨some (v, Iref.changeFirst id typeIloc (fun r => { r with ids := r.ids ++ [to] }) l), ?_,
      Or.inr ⟨{ r with ids := r.ids ++ [to] }, by simp, ?_, rfl, by simp⟩⟩
    · unfold Iref.addReference
      rw [hv]
      simp only [Iref.getReferences, h1, Res.bind]
      rw [if_neg (by omega), if_neg (by omega)]
    · simp only [Iref.ensure, Option.getD_some]
      exact find_changeFirst (g := fun r => { r with ids := r.ids ++ [to] }) (fun _ => rfl) h1

theorem RefsAre.get {refs : Iref.S} {id : Nat} {ids : List Nat} (h : RefsAre refs id ids) (hn : ids ≠ []) :
    Iref.getReferences refs id typeIloc = .ok ids := by
  rcases h with ⟨_, h2⟩ | ⟨r, h0, h1, h2, h3⟩
  · exact absurd h2 hn
  · cases refs with
    | none => exact absurd rfl h0
    | some p =>
      obtain ⟨v, l⟩ := p
      have h1 : l.find? (Iref.isRef id typeIloc) = some r := h1
      simp only [Iref.getReferences, h1, h2]

/-- A piece of an item: its ID, the first byte and the number of bytes. -/
structure Piece where
  to : Nat
  offset : Nat
  length : Nat

/-- Calls for one item, one after the other. -/
def addAll (i : Nat) : List Piece → S → Res S
  | [], s => .ok s
  | c :: cs, s => (addExtentItem s i c.to c.offset c.length).bind (addAll i cs)

/-- The extents for the pieces, from index `k`. -/
def extentsFrom (k : Nat) : List Piece → List Extent
  | [] => []
  | c :: cs => ⟨k, c.offset, c.length⟩ :: extentsFrom (k + 1) cs

theorem extentsFrom_append : ∀ (l l' : List Piece) (k : Nat), extentsFrom k (l ++ l') = extentsFrom k l ++ extentsFrom (k + l.length) l'
  | [], _, _ => rfl
  | c :: l, l', k => by
    rw [List.cons_append, extentsFrom, extentsFrom_append l l' (k + 1), extentsFrom, List.length_cons, List.cons_append, Nat.add_assoc, Nat.add_comm 1]

theorem extentsFrom_length : ∀ (l : List Piece) (k : Nat), (extentsFrom k l).length = l.length
  | [], _ => rfl
  | c :: l, k => by rw [extentsFrom, List.length_cons, extentsFrom_length l, List.length_cons]

theorem addAll_ok (i : Nat) (cs : List Piece) : ∀ (done : List Piece) (s : S) (a : Item), done.length + cs.length < 65536 →
    s.items[i]? = some a → RefsAre s.refs a.id (done.map Piece.to) → a.extents.getD [] = extentsFrom 1 done → (done ≠ [] → a.method = 2) →
    ∃ s' a', addAll i cs s = .ok s' ∧ s'.items[i]? = some a' ∧ a'.id = a.id ∧ RefsAre s'.refs a.id ((done ++ cs).map Piece.to) ∧
      a'.extents.getD [] = extentsFrom 1 (done ++ cs) ∧ (done ++ cs ≠ [] → a'.method = 2) ∧ s'.items.length = s.items.length ∧
      ∀ j, j ≠ i → s'.items[j]? = s.items[j]? := by
  induction cs with
  | nil =>
    intro done s a _ h1 h2 h3 h4
    exact ⟨s, a, rfl, h1, rfl, by rw [List.append_nil]; exact h2, by rw [List.append_nil]; exact h3, by rw [List.append_nil]; exact h4, rfl, fun _ _ => rfl⟩
  | cons c cs ih =>
    intro done s a hl h1 h2 h3 h4
    rw [List.length_cons] at hl
    obtain ⟨refs', r1, r2⟩ := h2.add c.to (by rw [List.length_map]; omega)
    have hi := (List.getElem?_eq_some_iff.mp h1).1
    rw [List.length_map] at r1
    have hadd : addExtentItem s i c.to c.offset c.length =
        .ok { s with refs := refs', items := s.items.set i (Meta.pushExtent a 2 ⟨done.length + 1, c.offset, c.length⟩) } := by
      unfold addExtentItem
      rw [h1]
      simp only []
      rw [if_neg, r1]
      · rfl
      · rintro ⟨g1, g2⟩
        refine g2 (h4 fun hd => g1 ?_)
        rw [h3, hd]; rfl
    obtain ⟨s', a', k1, k2, k3, k4, k5, k6, k7, k8⟩ := ih (done ++ [c])
      { s with refs := refs', items := s.items.set i (Meta.pushExtent a 2 ⟨done.length + 1, c.offset, c.length⟩) }
      (Meta.pushExtent a 2 ⟨done.length + 1, c.offset, c.length⟩)
      (by rw [List.length_append, List.length_singleton]; omega)
      (by simp [hi])
      (by rw [List.map_append]; exact r2)
      (by
        rw [extentsFrom_append]
        show (some (a.extents.getD [] ++ [⟨done.length + 1, c.offset, c.length⟩])).getD [] = _
        rw [h3, Nat.add_comm 1]; rfl)
      (fun _ => rfl)
    rw [List.append_assoc] at k4 k5 k6
    refine ⟨s', a', ?_, k2, k3, k4, k5, k6, by rw [k7]; simp, fun j hj => ?_⟩
    · rw [addAll, hadd]; exact k1
    · rw [k8 j hj]
      simp only [List.getElem?_set]
      rw [if_neg (Ne.symm hj)]

/-- The pieces, from the data of the items. -/
def pieces (data : Nat → Bytes) (cs : List Piece) : Bytes := cs.flatMap fun c => ((data c.to).drop c.offset).take c.length

theorem loop_pieces {n : Nat} {s : S} {a : Item} {data : Nat → Bytes} (h0 : a.method = 2) :
    ∀ (cs : List Piece) (k : Nat) (first : Bool) (base : Nat) (acc : Bytes),
    (∀ j c, cs[j]? = some c → ∃ b, target s a (k + j) = .ok b ∧ getData n s b = .ok (data c.to) ∧ (data c.to).length < 2 ^ 32 ∧
      c.length ≠ 0 ∧ c.offset + c.length ≤ (data c.to).length) →
    acc.length + (pieces data cs).length < 4294967296 →
    loop (getData n s) s a first base acc (extentsFrom k cs) = .ok (acc ++ pieces data cs)
  | [], k, first, base, acc, _, _ => by simp [extentsFrom, loop, pieces]
  | c :: cs, k, first, base, acc, h, hl => by
    obtain ⟨b, t1, t2, t3, t4, t5⟩ := h 0 c rfl
    have hp : pieces data (c :: cs) = ((data c.to).drop c.offset).take c.length ++ pieces data cs := rfl
    have hpl : (((data c.to).drop c.offset).take c.length).length = c.length := by rw [List.length_take, List.length_drop]; omega
    rw [hp, List.length_append, hpl] at hl
    rw [extentsFrom, loop]
    have e1 : lengthOf (getData n s) s a ⟨k, c.offset, c.length⟩ = .ok c.length := by
      unfold lengthOf
      rw [if_neg t4, if_neg (shiftRight_ne (by simp only; omega))]
    have e2 : pieceOf (getData n s) s a base ⟨k, c.offset, c.length⟩ c.length = .ok (((data c.to).drop c.offset).take c.length) := by
      unfold pieceOf
      rw [if_neg (by omega), if_neg (by omega), if_pos h0]
      simp only []
      rw [Nat.add_zero] at t1
      rw [t1]
      simp only [Res.bind, t2]
      rw [if_neg (by omega), if_pos t5]
    rw [e1]
    simp only [Res.bind]
    rw [if_neg (by omega), e2]
    simp only []
    rw [loop_pieces (data := data) h0 cs (k + 1) _ _ _ ?_ (by rw [List.length_append, hpl]; omega), hp, List.append_assoc]
    intro j c' hj
    have := h (j + 1) c' (by simpa using hj)
    rwa [show k + (j + 1) = k + 1 + j by omega] at this

/-- **C84, items made of items.** An item without extents and references is made of pieces of other items, by any number of calls below 65536. If each of
those can be read then, and has the bytes, the item is their pieces in the order of the calls. The other items are as they were. -/
theorem c84_made_of_items (s : S) (i : Nat) (a : Item) (cs : List Piece) (hi : s.items[i]? = some a) (he : a.extents.getD [] = [])
    (hr : (Iref.ensure s.refs).2.find? (Iref.isRef a.id (fcc 'i' 'l' 'o' 'c')) = none) (hcs : cs.length < 65536) (hto : ∀ c ∈ cs, c.to < 65536) :
    ∃ s' a', addAll i cs s = .ok s' ∧ s'.items[i]? = some a' ∧ a'.id = a.id ∧ (∀ j, j ≠ i → s'.items[j]? = s.items[j]?) ∧
      ∀ n (data : Nat → Bytes), cs ≠ [] →
        (∀ c ∈ cs, ∃ b, find s' c.to = .ok b ∧ getData n s' b = .ok (data c.to) ∧ (data c.to).length < 2 ^ 32 ∧
          c.length ≠ 0 ∧ c.offset + c.length ≤ (data c.to).length) →
        (pieces data cs).length < 2 ^ 32 → getData (n + 1) s' a' = .ok (pieces data cs) := by
  obtain ⟨s', a', k1, k2, k3, k4, k5, k6, -, k8⟩ := addAll_ok i cs [] s a (by simpa using hcs) hi (Or.inl ⟨hr, rfl⟩) (by rw [he]; rfl) (by simp)
  rw [List.nil_append] at k4 k5 k6
  refine ⟨s', a', k1, k2, k3, k8, fun n data hne hd hl => ?_⟩
  have h2 := k6 hne
  have hg := k4.get (by simpa using hne)
  unfold getData
  rw [if_neg (by omega), if_neg (by omega), k5, loop_pieces h2 cs 1 true a'.base [] ?_ (by simpa using hl)]
  · rfl
  · intro j c hj
    have hm := List.mem_of_getElem? hj
    have hjl := (List.getElem?_eq_some_iff.mp hj).1
    obtain ⟨b, b1, b2⟩ := hd c hm
    refine ⟨b, ?_, b2⟩
    unfold target Iref.getReference
    rw [k3, hg]
    simp only [Res.bind]
    rw [Nat.mod_eq_of_lt (by omega : 1 + j < 65536), List.length_map, if_neg (by omega), if_neg (by omega), show 1 + j - 1 = j by omega,
      List.getElem?_map, hj]
    simp only [Option.map_some]
    rw [Nat.mod_eq_of_lt (hto c hm)]
    exact b1

/-! ## Cases -/

/-- Items in both media data boxes of the file of C27, from a base, in the item data box, and made of the first two. -/
def sample : File where
  bytes := Movie.exampleFile
  items := [⟨1, 0, 0, 0, some [⟨0, 8, 2⟩, ⟨0, 37, 2⟩]⟩, ⟨2, 0, 0, 36, some [⟨0, 0, 1⟩, ⟨0, 3, 1⟩]⟩, ⟨3, 1, 0, 0, some [⟨0, 1, 2⟩]⟩,
    ⟨4, 2, 0, 0, some [⟨1, 1, 2⟩, ⟨2, 0, 0⟩]⟩]
  idat := [9, 8, 7]
  refs := fun i => if i = 4 then [1, 2] else []

def sampleBoxes : List Mdat.T := [⟨some [1, 2, 3], 3, 3, 8⟩, ⟨some [4, 5, 6, 7], 4, 4, 36⟩]

theorem sample_boxes : InOrder sample.bytes 0 sampleBoxes :=
  ⟨0, by decide, ⟨by decide, ⟨11, 0x6d646174, [], 0, 8⟩, Movie.exampleFile.drop 11, by decide⟩,
   28, by decide, ⟨by decide, ⟨12, 0x6d646174, [], 0, 8⟩, [], by decide⟩, trivial⟩

example : means 2 sample ⟨4, 2, 0, 0, some [⟨1, 1, 2⟩, ⟨2, 0, 0⟩]⟩ = some [2, 5, 4, 7] := by decide

theorem sample_first : Proper sample sampleBoxes 1 ⟨1, 0, 0, 0, some [⟨0, 8, 2⟩, ⟨0, 37, 2⟩]⟩ := by
  refine ⟨rfl, fun D h => ?_, Or.inl ⟨rfl, Or.inl ⟨rfl, ?_, Or.inr ⟨⟨0, 8, 2⟩, ⟨some [1, 2, 3], 3, 3, 8⟩, rfl, rfl, rfl⟩⟩⟩⟩
  · have : means 1 sample ⟨1, 0, 0, 0, some [⟨0, 8, 2⟩, ⟨0, 37, 2⟩]⟩ = some [1, 2, 5, 6] := by decide
    rw [this] at h
    injection h with h
    subst h
    decide
  · simp [Within, sampleBoxes]

theorem sample_second : Proper sample sampleBoxes 1 ⟨2, 0, 0, 36, some [⟨0, 0, 1⟩, ⟨0, 3, 1⟩]⟩ := by
  refine ⟨rfl, fun D h => ?_, Or.inl ⟨rfl, Or.inr ⟨⟨some [4, 5, 6, 7], 4, 4, 36⟩, by simp [sampleBoxes], by decide, ?_, ?_⟩⟩⟩
  · have : means 1 sample ⟨2, 0, 0, 36, some [⟨0, 0, 1⟩, ⟨0, 3, 1⟩]⟩ = some [4, 7] := by decide
    rw [this] at h
    injection h with h
    subst h
    decide
  · simp
  · simp [Within, sampleBoxes]

theorem sample_made : Proper sample sampleBoxes 2 ⟨4, 2, 0, 0, some [⟨1, 1, 2⟩, ⟨2, 0, 0⟩]⟩ := by
  refine ⟨rfl, fun D h => ?_, Or.inr (Or.inr ⟨rfl, rfl, ?_⟩)⟩
  · have : means 2 sample ⟨4, 2, 0, 0, some [⟨1, 1, 2⟩, ⟨2, 0, 0⟩]⟩ = some [2, 5, 4, 7] := by decide
    rw [this] at h
    injection h with h
    subst h
    decide
  · intro e he
    simp only [Option.getD_some, List.mem_cons, List.not_mem_nil, or_false] at he
    rcases he with rfl | rfl
    · refine ⟨by decide, by decide, fun b hb => ?_⟩
      have : sample.target ⟨4, 2, 0, 0, some [⟨1, 1, 2⟩, ⟨2, 0, 0⟩]⟩ 1 = some ⟨1, 0, 0, 0, some [⟨0, 8, 2⟩, ⟨0, 37, 2⟩]⟩ := by decide
      rw [this] at hb
      injection hb with hb
      subst hb
      exact sample_first
    · refine ⟨by decide, by decide, fun b hb => ?_⟩
      have : sample.target ⟨4, 2, 0, 0, some [⟨1, 1, 2⟩, ⟨2, 0, 0⟩]⟩ 2 = some ⟨2, 0, 0, 36, some [⟨0, 0, 1⟩, ⟨0, 3, 1⟩]⟩ := by decide
      rw [this] at hb
      injection hb with hb
      subst hb
      exact sample_second

/-- The item made of the others is read through both boxes. -/
example (junk : Nat → Nat → UInt8) : ∃ m items a', merge junk ⟨some [1, 2, 3], 3, 3, 8⟩ [⟨some [4, 5, 6, 7], 4, 4, 36⟩] sample.items = .ok (m, items) ∧
    items[3]? = some a' ∧ getData 2 ⟨items, some [9, 8, 7], some (0, [⟨typeIloc, 4, [1, 2], false⟩]), some m⟩ a' = .ok [2, 5, 4, 7] := by
  obtain ⟨m, items, h1, h2⟩ := c84_open_partial sample (by decide) junk _ _ sample_boxes (some [9, 8, 7]) (some (0, [⟨typeIloc, 4, [1, 2], false⟩]))
    (fun _ _ _ => rfl) (by decide) (by
      intro a ha hm
      simp only [sample, List.mem_cons, List.not_mem_nil, or_false] at ha
      rcases ha with rfl | rfl | rfl | rfl
      · cases hm
      · cases hm
      · cases hm
      · exact ⟨by decide, by decide⟩)
  obtain ⟨a', g1, -, g2⟩ := h2 2 3 _ _ rfl sample_made (by decide : means 2 sample ⟨4, 2, 0, 0, some [⟨1, 1, 2⟩, ⟨2, 0, 0⟩]⟩ = some [2, 5, 4, 7])
  exact ⟨m, items, a', h1, g1, g2⟩

/-- Deeper calls read the same. -/
example : getData (1 + 5) ⟨[], some [9, 8, 7], none, none⟩ ⟨3, 1, 0, 0, some [⟨0, 1, 2⟩]⟩ = .ok [8, 7] := c84_deeper _ _ _ _ 5 (by decide)

/-- Two places, the first not at the beginning of the media data: bytes 4 and 1 instead of 4 and 5. -/
example : getData 1 ⟨[], none, none, some ⟨some [1, 2, 3, 4, 5, 6, 7], 7, 7, 0⟩⟩ ⟨1, 0, 0, 0, some [⟨0, 3, 1⟩, ⟨0, 4, 1⟩]⟩ = .ok [4, 2] := by decide

example : getData 1 ⟨[], none, none, some ⟨some [4, 5, 6, 7], 4, 4, 36⟩⟩ ⟨1, 0, 0, 0, some [⟨0, 1, 1⟩, ⟨0, 2, 1⟩]⟩ =
    .ok (([4, 5, 6, 7].drop 1).take 1 ++ ([4, 5, 6, 7].drop (2 - 1)).take 1) :=
  c84_not_two_places 0 _ _ ⟨0, 1, 1⟩ ⟨0, 2, 1⟩ _ [4, 5, 6, 7] rfl
    (by
      have := (sample_boxes.choose_spec.2.2.choose_spec.2.1).data.2.2.1
      exact this)
    (by decide) rfl rfl rfl rfl (by decide) (by decide) (by decide)

/-- A file with one media data box of 12 bytes, and an item at 8 + 9. -/
def likeFile : File where
  bytes := [0, 0, 0, 20, 0x6d, 0x64, 0x61, 0x74, 1, 2, 3, 4, 5, 6, 7, 8, 9, 10, 11, 12]
  items := [⟨1, 0, 0, 8, some [⟨0, 9, 2⟩]⟩]
  idat := []
  refs := fun _ => []

example (junk : Nat → Nat → UInt8) : means 1 likeFile ⟨1, 0, 0, 8, some [⟨0, 9, 2⟩]⟩ = some [10, 11] ∧
    ∃ m a', merge junk ⟨some [1, 2, 3, 4, 5, 6, 7, 8, 9, 10, 11, 12], 12, 12, 8⟩ [] likeFile.items = .ok (m, [a']) ∧
      getData 1 ⟨[a'], none, none, some m⟩ a' = .ok [2, 3] :=
  c84_not_offset_like_place 0 likeFile (by decide) junk ⟨some [1, 2, 3, 4, 5, 6, 7, 8, 9, 10, 11, 12], 12, 12, 8⟩
    ⟨0, by decide, ⟨by decide, ⟨20, 0x6d646174, [], 0, 8⟩, [], by decide⟩, trivial⟩
    ⟨1, 0, 0, 8, some [⟨0, 9, 2⟩]⟩ ⟨0, 9, 2⟩ rfl rfl rfl (by decide) (by decide) (by decide) (by decide) rfl none none

/-- The file says the bytes from 1 + 1; those from 1 are read. -/
example : getData 1 ⟨[], some [9, 8, 7, 6], none, none⟩ ⟨3, 1, 0, 1, some [⟨0, 1, 2⟩]⟩ = .ok [8, 7] ∧
    means 1 ⟨[], [], [9, 8, 7, 6], fun _ => []⟩ ⟨3, 1, 0, 1, some [⟨0, 1, 2⟩]⟩ = some [7, 6] := by decide

example : getData 1 ⟨[], none, none, none⟩ ⟨1, 0, 0, 8, some [⟨0, 9, 2⟩]⟩ = .err .badParam :=
  c84_not_without_media_data 0 _ _ ⟨0, 9, 2⟩ [] rfl rfl rfl rfl (by decide)

/-- An item made of itself, and two made of each other. -/
def loops : S where
  items := [⟨1, 2, 0, 0, some [⟨1, 0, 1⟩]⟩, ⟨2, 2, 0, 0, some [⟨1, 0, 1⟩]⟩, ⟨3, 2, 0, 0, some [⟨1, 0, 0⟩]⟩]
  idat := none
  refs := some (0, [⟨typeIloc, 1, [1], false⟩, ⟨typeIloc, 2, [3], false⟩, ⟨typeIloc, 3, [2], false⟩])
  mdat := none

example (n : Nat) : ∀ a ∈ loops.items, getData n loops a = .ub := fun a ha =>
  c84_not_without_end loops (· ∈ loops.items) (by
    intro a ha
    simp only [loops, List.mem_cons, List.not_mem_nil, or_false] at ha
    rcases ha with rfl | rfl | rfl
    · exact ⟨rfl, _, _, rfl, by decide, ⟨1, 2, 0, 0, some [⟨1, 0, 1⟩]⟩, by decide, by simp [loops]⟩
    · exact ⟨rfl, _, _, rfl, by decide, ⟨3, 2, 0, 0, some [⟨1, 0, 0⟩]⟩, by decide, by simp [loops]⟩
    · exact ⟨rfl, _, _, rfl, by decide, ⟨2, 2, 0, 0, some [⟨1, 0, 1⟩]⟩, by decide, by simp [loops]⟩) n a ha

/-- Of three bytes: two from the fourth on, two from the third, and without an index. -/
def short : S := ⟨[⟨1, 1, 0, 0, some [⟨0, 0, 3⟩]⟩], some [9, 8, 7], some (0, [⟨typeIloc, 2, [1], false⟩]), none⟩

example : getData 2 short ⟨2, 2, 0, 0, some [⟨1, 4, 2⟩]⟩ = .ub :=
  c84_not_past_the_end 1 short _ ⟨1, 1, 0, 0, some [⟨0, 0, 3⟩]⟩ ⟨1, 4, 2⟩ [] [9, 8, 7] rfl rfl (by decide) (by decide) (by decide) (by decide) (by decide) (by decide)

example : getData 2 short ⟨2, 2, 0, 0, some [⟨1, 2, 2⟩]⟩ = .err .badData :=
  c84_too_long 1 short _ ⟨1, 1, 0, 0, some [⟨0, 0, 3⟩]⟩ ⟨1, 2, 2⟩ [] [9, 8, 7] rfl rfl (by decide) (by decide) (by decide) (by decide) (by decide) (by decide) (by decide)

example : getData 2 short ⟨2, 2, 0, 0, some [⟨1, 1, 0⟩]⟩ = .err .badData :=
  c84_offset_without_length 1 short _ ⟨1, 1, 0⟩ [] rfl rfl (by decide) (Or.inr (Or.inr ⟨rfl, ⟨1, 1, 0, 0, some [⟨0, 0, 3⟩]⟩, [9, 8, 7], by decide, by decide⟩))

example : getData 2 short ⟨2, 2, 0, 0, some [⟨0, 0, 1⟩]⟩ = .ub :=
  c84_not_without_index 1 short _ ⟨0, 0, 1⟩ [] _ _ rfl rfl rfl (by decide) rfl

/-- Two items in five bytes of media data, written after 40 bytes: 40 and 43 in the file, put back and opened again. -/
def before : List Item := [⟨1, 0, 0, 0, some [⟨0, 0, 3⟩]⟩, ⟨2, 0, 0, 3, some [⟨0, 3, 2⟩]⟩]

example : written 40 ⟨some [1, 2, 3, 4, 5], 5, 5, 0⟩ before = [⟨1, 0, 0, 40, some [⟨0, 40, 3⟩]⟩, ⟨2, 0, 0, 43, some [⟨0, 43, 2⟩]⟩] := by decide

theorem before_clear : Clear 40 5 before := by
  intro a ha _ _
  simp only [before, List.mem_cons, List.not_mem_nil, or_false] at ha
  rcases ha with rfl | rfl <;> simp

example (junk : Nat → Nat → UInt8) : merge junk ⟨none, 5, 5, 40⟩ [] (written 40 ⟨some [1, 2, 3, 4, 5], 5, 5, 0⟩ before) = .ok (⟨none, 5, 5, 40⟩, before) :=
  (c84_reopened 40 ⟨some [1, 2, 3, 4, 5], 5, 5, 0⟩ ⟨none, 5, 5, 40⟩ before junk (by decide) before_clear rfl rfl).2

example (f : File) (hf : f.bytes.length = 45) : ∃ a', (written 40 ⟨some [1, 2, 3, 4, 5], 5, 5, 0⟩ before)[0]? = some a' ∧ means 1 f a' = none :=
  c84_not_readable_as_written 1 40 ⟨some [1, 2, 3, 4, 5], 5, 5, 0⟩ before 0 _ f (by decide) hf (by decide) rfl rfl rfl (by decide) ⟨0, 0, 3⟩ 0 rfl (by decide)
    (by decide)

/-- An item made of two pieces of another and one of a third. -/
def parts : S := ⟨[⟨1, 1, 0, 0, some [⟨0, 0, 3⟩]⟩, ⟨2, 1, 0, 0, some [⟨0, 3, 2⟩]⟩, ⟨3, 0, 0, 0, none⟩], some [9, 8, 7, 6, 5], none, none⟩

example : (addAll 2 [⟨1, 1, 2⟩, ⟨2, 0, 1⟩, ⟨1, 0, 1⟩] parts).bind (fun s => (find s 3).bind (getData 2 s)) = .ok [8, 7, 6, 9] := by decide

example : ∃ s' a', addAll 2 [⟨1, 1, 2⟩, ⟨2, 0, 1⟩, ⟨1, 0, 1⟩] parts = .ok s' ∧ s'.items[2]? = some a' ∧ a'.id = 3 :=
  let ⟨s', a', h1, h2, h3, _⟩ := c84_made_of_items parts 2 ⟨3, 0, 0, 0, none⟩ [⟨1, 1, 2⟩, ⟨2, 0, 1⟩, ⟨1, 0, 1⟩] rfl rfl rfl (by decide) (by decide)
  ⟨s', a', h1, h2, h3⟩

end Verif.ItemFile
