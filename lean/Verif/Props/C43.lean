import Verif.Props.C24
import Verif.Spec.Box

/-!
# C43 — the media data box header declares the real size
-/

namespace Verif.Mdat

/-- The layout in the standard: 32-bit size if the whole box is shorter than 2^32 bytes, else size
field 1 and a 64-bit size after the type. -/
def layout (D : Bytes) : Bytes :=
  if 8 + D.length < 2 ^ 32 then box (fcc 'm' 'd' 'a' 't') D
  else be 4 1 ++ be 4 (fcc 'm' 'd' 'a' 't') ++ be 8 (16 + D.length) ++ D

/-- The size declared by a parsed header. -/
def declared (h : Hdr) : Nat := if h.size = 1 then h.size64 else h.size

theorem layout_small {D : Bytes} (h : 8 + D.length < 4294967296) :
    layout D = (be 4 (8 + D.length) ++ be 4 typeMdat) ++ D := if_pos h

theorem layout_large {D : Bytes} (h : ¬ 8 + D.length < 4294967296) :
    layout D = be 4 1 ++ be 4 typeMdat ++ be 8 (16 + D.length) ++ D := if_neg h

theorem calcSize_small {n : Nat} (h0 : 0 < n) (h : n < 4294967296) (old64 : Nat) :
    calcSize n old64 = ((8 + n) % 4294967296, old64) := by
  unfold calcSize
  rw [if_neg (by omega), if_neg]
  rw [Nat.shiftRight_eq_div_pow]
  intro hc
  exact hc (Nat.div_eq_of_lt h)

theorem calcSize_large {n : Nat} (h : 4294967296 ≤ n) (h2 : n < 9223372036854775808) (old64 : Nat) :
    calcSize n old64 = (1, 16 + n) := by
  unfold calcSize
  rw [if_neg (by omega), if_pos]
  · have : (n + 8 + 8) % 18446744073709551616 = 16 + n := by omega
    rw [this]
  · rw [Nat.shiftRight_eq_div_pow]
    have := Nat.div_pos (a := n) (b := 2 ^ 32) h (by omega)
    omega

theorem write_ok {t : T} {D : Bytes} (h : Rep t D) (h0 : D ≠ []) (hl : D.length < 9223372036854775808)
    (hx : ¬ (4294967288 ≤ D.length ∧ D.length < 4294967296)) (old64 : Nat) :
    writeToFile t old64 = .ok (layout D) := by
  have hp := List.length_pos_iff.mpr h0
  have hs := h.size
  have hf := h.fits
  unfold writeToFile
  rw [hs]
  cases hd : t.data with
  | none => have := h.null hd; omega
  | some c =>
    obtain ⟨h1, h2⟩ := h.cells c hd
    have hc : ¬ c.length < D.length := by omega
    by_cases hb : D.length < 4294967296
    · have e2 : (8 + D.length) % 4294967296 = 8 + D.length := by omega
      rw [calcSize_small hp hb, e2, if_pos (by omega), layout_small (by omega)]
      unfold serBaseLarge
      dsimp only
      rw [if_neg (by omega), if_neg (by omega),
        ((emits_put32 (8 + D.length)).seq (emits_put32 typeMdat)).run (by simp), if_pos (by simp)]
      dsimp only [Res.bind]
      rw [if_neg hc, h2]
    · rw [calcSize_large (by omega) hl, if_pos (by simp), layout_large (by omega)]
      unfold serBaseLarge
      dsimp only
      rw [if_neg (by simp), if_pos rfl,
        ((emits_put32 1).seq ((emits_put32 typeMdat).seq (emits_put64 (16 + D.length)))).run (by simp),
        if_pos (by simp)]
      dsimp only [Res.bind]
      rw [if_neg hc, h2]
      simp only [List.append_assoc]

/-- What parsing a media data box with data `D` gives. -/
def parsedAs (off hlen : Nat) (D : Bytes) : T :=
  if D.length < 2 ^ 31 then ⟨some D, D.length, D.length, off + hlen⟩ else ⟨none, 0, 0, off + hlen⟩

theorem parseBody_ok (off : Nat) (h : Hdr) (hlen : Nat) (D rest : Bytes) (h0 : D ≠ [])
    (hb : bytesToRead h hlen = D.length) :
    ∃ k, parseBody off h ⟨D ++ rest, hlen⟩ = .ok (parsedAs off hlen D, ⟨rest, k⟩) := by
  have hp := List.length_pos_iff.mpr h0
  unfold parseBody parsedAs
  dsimp only
  rw [hb, Nat.shiftRight_eq_div_pow]
  by_cases hs : D.length < 2 ^ 31
  · rw [if_neg (by rw [Nat.div_eq_of_lt hs]; simp), if_pos hp, if_pos hs]
    refine ⟨hlen + D.length, ?_⟩
    rw [P.bind_apply, parses_getBytes (bs := D) rfl]
    rfl
  · have := Nat.div_pos (a := D.length) (b := 2 ^ 31) (by omega) (by omega)
    rw [if_pos this, if_neg hs]
    refine ⟨hlen, ?_⟩
    rw [P.bind_apply]
    unfold skipData
    rw [if_neg (by simp)]
    simp [P.pure_apply]

theorem parseHeader_large {type size64 : Nat} (hs : size64 < 18446744073709551616)
    (ht : type < 4294967296) (hu : type ≠ typeUuid) (r : Bytes) :
    parseHeader (be 4 1 ++ (be 4 type ++ (be 8 size64 ++ r))) = .ok (⟨1, type, [], size64, 16⟩, r) := by
  unfold parseHeader
  rw [rd32_be, Res.ok_bind]
  simp only [show (1 : Nat) % 4294967296 = 1 from rfl, show ¬ ((1 : Nat) = 0) by omega, if_false,
    show ¬ ((1 : Nat) ≠ 1 ∧ (1 + 4294967292) % 4294967296 > (be 4 type ++ (be 8 size64 ++ r)).length)
      by intro h; exact h.1 rfl]
  rw [rd32_be, Res.ok_bind]
  simp only [Nat.mod_eq_of_lt ht, hu, if_false, Res.ok_bind, if_true]
  rw [be8_split, List.append_assoc, rd32_be, Res.ok_bind]
  dsimp only
  rw [rd32_be, Res.ok_bind]
  simp only [Res.ok_bind, show ¬ ((1 : Nat) ≠ 1 ∧ 1 < 16) by omega, if_false]
  have : size64 / 4294967296 % 4294967296 * 4294967296 + size64 % 4294967296 = size64 := by omega
  rw [this]

/-- The box parser, when the body parser reads all that was declared. -/
theorem parseAtom_of {α : Type} {body : Hdr → P α} {inp r : Bytes} {h : Hdr} {a : α} {s : PS}
    (hh : parseHeader inp = .ok (h, r)) (hb : body h ⟨r, h.hlen⟩ = .ok (a, s))
    (hd : declared h + s.rest.length ≤ inp.length) :
    parseAtom body inp = .ok (a, h, s.rest) := by
  unfold parseAtom
  rw [hh]
  dsimp only
  rw [hb]
  have e : (if h.size = 1 then h.size64 else h.size) - (inp.length - s.rest.length) = 0 := by
    unfold declared at hd
    omega
  dsimp only
  rw [e, List.drop_zero]

theorem declared_small {n type : Nat} : declared ⟨8 + n, type, [], 0, 8⟩ = 8 + n := by
  unfold declared
  dsimp only
  rw [if_neg (by omega)]

theorem bytesToRead_small {n : Nat} (h : 8 + n < 4294967296) (type : Nat) :
    bytesToRead ⟨8 + n, type, [], 0, 8⟩ 8 = n := by
  unfold bytesToRead
  dsimp only
  rw [if_neg (by omega)]
  omega

theorem bytesToRead_large {n : Nat} (h : n < 9223372036854775808) (type : Nat) :
    bytesToRead ⟨1, type, [], 16 + n, 16⟩ 16 = n := by
  unfold bytesToRead
  dsimp only
  rw [if_pos rfl]
  omega

theorem layout_length_small {D : Bytes} (h : 8 + D.length < 4294967296) :
    (layout D).length = 8 + D.length := by
  rw [layout_small h]
  simp only [List.length_append, be_length]

theorem layout_length_large {D : Bytes} (h : ¬ 8 + D.length < 4294967296) :
    (layout D).length = 16 + D.length := by
  rw [layout_large h]
  simp only [List.length_append, be_length]

theorem read_ok (D : Bytes) (h0 : D ≠ []) (hl : D.length < 9223372036854775808) (off : Nat)
    (rest : Bytes) :
    ∃ h : Hdr, parseAtom (parseBody off) (layout D ++ rest) = .ok (parsedAs off h.hlen D, h, rest) ∧
      declared h = (layout D).length ∧ h.hlen + D.length = (layout D).length := by
  by_cases hb : 8 + D.length < 4294967296
  · refine ⟨⟨8 + D.length, typeMdat, [], 0, 8⟩, ?_, ?_, (layout_length_small hb).symm⟩
    · obtain ⟨k, e⟩ := parseBody_ok off ⟨8 + D.length, typeMdat, [], 0, 8⟩ 8 D rest h0
        (bytesToRead_small hb _)
      refine parseAtom_of (body := parseBody off)
        (h := ⟨8 + D.length, typeMdat, [], 0, 8⟩) (s := ⟨rest, k⟩) (r := D ++ rest) ?_ e ?_
      · rw [layout_small hb, List.append_assoc]
        exact parseHeader_small hb (by omega) (by decide) (by decide) _
          (by rw [List.length_append]; omega)
      · rw [List.length_append, layout_length_small hb, declared_small]
        exact Nat.le_refl _
    · rw [layout_length_small hb]
      exact declared_small
  · refine ⟨⟨1, typeMdat, [], 16 + D.length, 16⟩, ?_, ?_, (layout_length_large hb).symm⟩
    · obtain ⟨k, e⟩ := parseBody_ok off ⟨1, typeMdat, [], 16 + D.length, 16⟩ 16 D rest h0
        (bytesToRead_large hl _)
      refine parseAtom_of (body := parseBody off)
        (h := ⟨1, typeMdat, [], 16 + D.length, 16⟩) (s := ⟨rest, k⟩) (r := D ++ rest) ?_ e ?_
      · have e0 : be 4 1 ++ be 4 typeMdat ++ be 8 (16 + D.length) ++ D ++ rest =
            be 4 1 ++ (be 4 typeMdat ++ (be 8 (16 + D.length) ++ (D ++ rest))) := by
          simp only [List.append_assoc]
        rw [layout_large hb, e0]
        exact parseHeader_large (by omega) (by decide) (by decide) _
      · rw [List.length_append, layout_length_large hb]
        exact Nat.le_refl _
    · rw [layout_length_large hb]
      exact if_pos rfl

/-- **C43, except for eight data sizes.** A media data box holding `D` (of less than 2^63 bytes,
not one of the eight lengths from 2^32 - 8 to 2^32 - 1) is written in the layout of the standard,
the 64-bit form being used exactly when needed. Parsing it, with anything after it, finds the
declared size equal to the number of bytes written, leaves what follows, and finds the data where
it is; the data itself is kept if shorter than 2^31 bytes (and else left in the file).

Missing for the full claim: the eight lengths, for which it is false (`c43_wrong_size`). -/
theorem c43_header_partial {t : T} {D : Bytes} (h : Holds t D) (h0 : D ≠ []) (hl : D.length < 2 ^ 63)
    (hx : ¬ (2 ^ 32 - 8 ≤ D.length ∧ D.length < 2 ^ 32)) (old64 : Nat) :
    writeToFile t old64 = .ok (layout D) ∧
    ∀ (off : Nat) (rest : Bytes), ∃ (t' : T) (hd : Hdr),
      parseAtom (parseBody off) (layout D ++ rest) = .ok (t', hd, rest) ∧
      declared hd = (layout D).length ∧ t'.dataOffset + D.length = off + (layout D).length ∧
      (D.length < 2 ^ 31 → t'.data = some D ∧ t'.dataSize = D.length) ∧
      (2 ^ 31 ≤ D.length → t'.data = none) := by
  refine ⟨write_ok (h.bound hl) h0 hl hx old64, ?_⟩
  intro off rest
  obtain ⟨hd, e1, e2, e3⟩ := read_ok D h0 hl off rest
  refine ⟨_, hd, e1, e2, ?_, ?_, ?_⟩
  · unfold parsedAs
    split
    · show off + hd.hlen + D.length = _
      omega
    · show off + hd.hlen + D.length = _
      omega
  · intro hs
    unfold parsedAs
    rw [if_pos hs]
    exact ⟨rfl, rfl⟩
  · intro hs
    unfold parsedAs
    rw [if_neg (by omega)]

/-- A box without data is not written at all. -/
theorem c43_empty {t : T} (h : Holds t []) (old64 : Nat) : writeToFile t old64 = .ok [] := by
  have hs := (h.bound (by decide)).size
  unfold writeToFile calcSize
  rw [hs]
  rfl

theorem run_put32_fail2 {size v w : Nat} (h : size < 8) :
    runW size (put32 v ;; put32 w) = .err .ioErr := by
  rw [((emits_put32 v).seq (emits_put32 w)).run (by simp), if_neg (by simp; omega)]

/-- **The full claim is false**: for each of the eight data lengths from 2^32 - 8 to 2^32 - 1 the
32-bit size wraps, and the box is not written as the standard demands. For the first of them
nothing is written at all, and no error is reported. (`old64` is the 64-bit size of an earlier
computation; 0 in a new box.) -/
theorem c43_wrong_size {t : T} {D : Bytes} (h : Holds t D) (h1 : 2 ^ 32 - 8 ≤ D.length)
    (h2 : D.length < 2 ^ 32) (old64 : Nat) (ho : old64 < 2 ^ 32) :
    writeToFile t old64 ≠ .ok (layout D) ∧
      (D.length = 2 ^ 32 - 8 → writeToFile t old64 = .ok []) := by
  have r := h.bound (by omega)
  have hs := r.size
  have hll := layout_length_large (D := D) (by omega)
  have e2 : (8 + D.length) % 4294967296 = D.length - 4294967288 := by omega
  have e3 : writeToFile t old64 = if D.length - 4294967288 > 0 then
      (serBaseLarge (D.length - 4294967288) old64 typeMdat).bind fun hd =>
        match t.data with
        | none => .ub
        | some c => if c.length < D.length then .ub else .ok (hd ++ c.take D.length)
      else .ok [] := by
    unfold writeToFile
    rw [hs, calcSize_small (by omega) h2, e2]
    rfl
  rw [e3]
  refine ⟨?_, ?_⟩
  · by_cases hz : D.length = 4294967288
    · rw [if_neg (by omega)]
      intro hc
      injection hc with hc
      rw [← hc, List.length_nil] at hll
      omega
    · rw [if_pos (by omega)]
      unfold serBaseLarge
      rw [if_neg (by omega)]
      by_cases hone : D.length - 4294967288 = 1
      · rw [if_pos hone, ((emits_put32 1).seq ((emits_put32 typeMdat).seq (emits_put64 old64))).run
          (by simp), if_pos (by simp), layout_large (by omega)]
        dsimp only [Res.bind]
        cases hd : t.data with
        | none => intro hc; cases hc
        | some c =>
          dsimp only
          obtain ⟨k1, k2⟩ := r.cells c hd
          have hf := r.fits
          have hc : ¬ c.length < D.length := by omega
          rw [if_neg hc, k2]
          intro hc
          injection hc with hc
          have hc := List.append_cancel_right hc
          rw [← List.append_assoc] at hc
          have hc := congrArg unbe (List.append_cancel_left hc)
          rw [unbe_be, unbe_be] at hc
          have e8 : (256 : Nat) ^ 8 = 18446744073709551616 := by decide
          rw [e8] at hc
          omega
      · rw [if_neg hone, run_put32_fail2 (by omega)]
        intro hc
        cases hc
  · intro hz
    rw [if_neg (by omega)]

/-- The hypotheses are met: a box holding the bytes 1, 2, 3 is written as `00 00 00 0B mdat 01 02
03`; and boxes of any length exist, also of the eight lengths and of those that need 64 bits. -/
example : ∃ t, Holds t [1, 2, 3] ∧
    writeToFile t 0 = .ok [0, 0, 0, 11, 109, 100, 97, 116, 1, 2, 3] := by
  have p : parseAtom (parseBody 0) [0, 0, 0, 11, 109, 100, 97, 116, 1, 2, 3] =
      .ok (⟨some [1, 2, 3], 3, 3, 8⟩, ⟨11, typeMdat, [], 0, 8⟩, []) := by decide
  exact ⟨_, Holds.parsed p, (c43_header_partial (Holds.parsed p) (by decide) (by decide) (by decide) 0).1⟩

example (n : Nat) (hn : n < 2 ^ 63) : ∃ t, Holds t (List.replicate n 7) := by
  obtain ⟨t, e, _⟩ := addData_ok (fun _ => 0) (bs := List.replicate n 7) rep_create
    (by rw [List.nil_append, List.length_replicate]; exact hn)
  exact ⟨t, Holds.add Holds.create e⟩

end Verif.Mdat
