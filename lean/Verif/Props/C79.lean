import Verif.Model.Jp2
import Verif.Lemmas.Stores
import Verif.Lemmas.Entries
import Verif.Lemmas.Sound
import Verif.Lemmas.Auto

/-!
# C79: boxes of JPEG 2000, H.263 and stereo video

Full property: what is in these boxes is written as the standards say and read back. It holds for color specifications of the two
methods the library knows and for H.263; it does not hold for the rest, as shown below.
-/

namespace Verif.Jp2

open Verif.Ent (Class Kid Survives Reads wire vals listSize serList)
open Verif.Saiz (parses_stores breaks_stores bytes_length emits_sizes)

/-! ## Specification -/

/-- The number with the two or four bytes of `v` in the opposite order. -/
def swap16 (v : Nat) : Nat := v % 256 * 256 + v / 256 % 256
def swap32 (v : Nat) : Nat :=
  v % 256 * 16777216 + v / 256 % 256 * 65536 + v / 65536 % 256 * 256 + v / 16777216 % 256

/-- ISO/IEC 15444-1, I.5.3.1. -/
def Ihdr.payload (x : Ihdr) : Bytes :=
  be 4 x.height ++ (be 4 x.width ++ (be 2 x.compCount ++ (be 1 x.compBits ++ (be 1 x.compressionType ++
    (be 1 x.colorspaceKnown ++ be 1 x.ip)))))

def Ihdr.layout (x : Ihdr) : Bytes := box (fcc 'i' 'h' 'd' 'r') x.payload

structure Ihdr.Fits (x : Ihdr) : Prop where
  height : x.height < 2 ^ 32
  width : x.width < 2 ^ 32
  compCount : x.compCount < 2 ^ 16
  compBits : x.compBits < 2 ^ 8
  compressionType : x.compressionType < 2 ^ 8
  colorspaceKnown : x.colorspaceKnown < 2 ^ 8
  ip : x.ip < 2 ^ 8

/-- The header that the written bytes say. -/
def Ihdr.turned (big : Bool) (x : Ihdr) : Ihdr :=
  if big then ⟨x.height, x.width, x.compCount / 2 ^ 16, x.compBits / 2 ^ 24, x.compressionType / 2 ^ 24,
    x.colorspaceKnown / 2 ^ 24, x.ip / 2 ^ 24⟩
  else ⟨swap32 x.height, swap32 x.width, swap16 x.compCount, x.compBits, x.compressionType, x.colorspaceKnown, x.ip⟩

def layoutBpcc (l : List Nat) : Bytes := box (fcc 'b' 'p' 'c' 'c') (l.flatMap (be 1))

/-- What a color specification says: an enumerated colour space, a profile, or (for methods the library does not know) nothing it
keeps. -/
def Colr.payload (x : Colr) : Bytes :=
  be 1 x.method ++ (be 1 x.precedence ++ (be 1 x.approx ++
    (if x.method = 1 then be 4 x.enumCS else if x.method = 2 then x.profile else [])))

structure Colr.Fits (x : Colr) : Prop where
  method : x.method < 2 ^ 8
  precedence : x.precedence < 2 ^ 8
  approx : x.approx < 2 ^ 8
  enumCS : x.enumCS < 2 ^ 32
  enumerated : x.method ≠ 1 → x.enumCS = 0
  profiled : x.method ≠ 2 → x.profile = []
  size : x.profile.length < 2 ^ 32 - 11

/-- ISO/IEC 14496-12, 8.15.4.2: 30 reserved bits and 2, the scheme, the length and the bytes of the indication. -/
def Stereo.payload (x : Stereo) : Bytes :=
  be 4 (x.reserved * 4 + x.single) ++ (be 4 x.scheme ++ (be 4 x.types.length ++ x.types.flatMap (be 1)))

structure Stereo.Fits (x : Stereo) : Prop where
  reserved : x.reserved < 2 ^ 30
  single : x.single < 2 ^ 2
  scheme : x.scheme < 2 ^ 32
  types : ∀ t ∈ x.types, t < 2 ^ 8
  length : x.types.length < 2 ^ 32 - 24

/-! ## Bytes in memory -/

theorem be_eq {n a b : Nat} (h : a % 256 ^ n = b % 256 ^ n) : be n a = be n b := by
  have h1 := unbe_be n a
  have h2 := unbe_be n b
  have e1 := be_unbe (be n a)
  have e2 := be_unbe (be n b)
  rw [be_length] at e1 e2
  rw [← e1, ← e2, h1, h2, h]

theorem be_cons1 (v : Nat) (w : Nat) (h : v % 256 = w % 256) : be 1 v = be 1 w := be_eq (by simpa using h)

theorem ofNat_eq {a b : Nat} (e : a % 256 = b % 256) : UInt8.ofNat a = UInt8.ofNat b := by
  rw [← UInt8.ofNat_mod_size (x := a), ← UInt8.ofNat_mod_size (x := b)]; exact congrArg _ e

theorem be_four {a b c d : Nat} (ha : a < 256) (hb : b < 256) (hc : c < 256) (hd : d < 256) :
    be 4 (a * 16777216 + b * 65536 + c * 256 + d) = [UInt8.ofNat a, UInt8.ofNat b, UInt8.ofNat c, UInt8.ofNat d] := by
  simp only [be, Nat.reducePow]
  rw [show (a * 16777216 + b * 65536 + c * 256 + d) / 16777216 = a by omega,
    ofNat_eq (show (a * 16777216 + b * 65536 + c * 256 + d) / 65536 % 256 = b % 256 by omega),
    ofNat_eq (show (a * 16777216 + b * 65536 + c * 256 + d) / 256 % 256 = c % 256 by omega),
    ofNat_eq (show (a * 16777216 + b * 65536 + c * 256 + d) / 1 % 256 = d % 256 by omega)]

theorem be_two {a b : Nat} (ha : a < 256) (hb : b < 256) : be 2 (a * 256 + b) = [UInt8.ofNat a, UInt8.ofNat b] := by
  simp only [be, Nat.reducePow]
  rw [show (a * 256 + b) / 256 = a by omega, ofNat_eq (show (a * 256 + b) / 1 % 256 = b % 256 by omega)]

theorem be_parts (v : Nat) : be 4 v = [UInt8.ofNat (v / 16777216 % 256), UInt8.ofNat (v / 65536 % 256),
    UInt8.ofNat (v / 256 % 256), UInt8.ofNat (v % 256)] := by
  simp only [be, Nat.reducePow]
  rw [ofNat_eq (show v / 16777216 % 256 = v / 16777216 % 256 % 256 by omega),
    ofNat_eq (show v / 65536 % 256 = v / 65536 % 256 % 256 by omega),
    ofNat_eq (show v / 256 % 256 = v / 256 % 256 % 256 by omega), ofNat_eq (show v / 1 % 256 = v % 256 % 256 by omega)]

theorem mem_four (big : Bool) (v : Nat) : (mem big v).take 4 = be 4 (if big then v else swap32 v) := by
  unfold mem
  cases big
  · simp only [Bool.false_eq_true, if_false]
    unfold swap32
    rw [be_parts, be_four (by omega) (by omega) (by omega) (by omega)]
    rfl
  · rfl

theorem mem_two (big : Bool) (v : Nat) : (mem big v).take 2 = be 2 (if big then v / 2 ^ 16 else swap16 v) := by
  unfold mem
  cases big
  · simp only [Bool.false_eq_true, if_false]
    unfold swap16
    rw [be_parts, be_two (by omega) (by omega)]
    rfl
  · simp only [if_true, be, List.take, Nat.reducePow]
    rw [ofNat_eq (a := v / 16777216) (b := v / 65536 / 256) (by omega), ofNat_eq (a := v / 65536) (b := v / 65536 / 1) (by omega)]

theorem mem_one (big : Bool) (v : Nat) : (mem big v).take 1 = be 1 (if big then v / 2 ^ 24 else v) := by
  unfold mem
  cases big
  · simp only [Bool.false_eq_true, if_false]
    simp only [be, List.reverse_cons, List.reverse_nil, List.nil_append, List.cons_append, List.take]
  · simp only [if_true, be, List.take]
    rw [ofNat_eq (a := v / 256 ^ 3) (b := v / 2 ^ 24 / 256 ^ 0) (by simp only [Nat.reducePow]; omega)]

theorem swap32_lt (v : Nat) : swap32 v < 2 ^ 32 := by unfold swap32; omega
theorem swap16_lt (v : Nat) : swap16 v < 2 ^ 16 := by unfold swap16; omega

theorem swap32_swap32 {v : Nat} (h : v < 2 ^ 32) : swap32 (swap32 v) = v := by
  have e : ∀ a b c d : Nat, a < 256 → b < 256 → c < 256 → d < 256 →
      swap32 (a * 16777216 + b * 65536 + c * 256 + d) = d * 16777216 + c * 65536 + b * 256 + a := by
    intro a b c d ha hb hc hd
    unfold swap32
    have e1 : (a * 16777216 + b * 65536 + c * 256 + d) % 256 = d := by omega
    have e2 : (a * 16777216 + b * 65536 + c * 256 + d) / 256 % 256 = c := by omega
    have e3 : (a * 16777216 + b * 65536 + c * 256 + d) / 65536 % 256 = b := by omega
    have e4 : (a * 16777216 + b * 65536 + c * 256 + d) / 16777216 % 256 = a := by omega
    rw [e1, e2, e3, e4]
  have h0 : swap32 v = v % 256 * 16777216 + v / 256 % 256 * 65536 + v / 65536 % 256 * 256 + v / 16777216 % 256 := rfl
  rw [h0, e _ _ _ _ (by omega) (by omega) (by omega) (by omega)]
  have h1 : v / 65536 = v / 256 / 256 := by rw [Nat.div_div_eq_div_mul]
  have h2 : v / 16777216 = v / 256 / 256 / 256 := by rw [Nat.div_div_eq_div_mul, Nat.div_div_eq_div_mul]
  have h3 : v / 256 / 256 / 256 < 256 := by omega
  rw [h1, h2, Nat.mod_eq_of_lt h3]
  have a1 := Nat.div_add_mod v 256
  have a2 := Nat.div_add_mod (v / 256) 256
  have a3 := Nat.div_add_mod (v / 256 / 256) 256
  generalize v / 256 / 256 / 256 = q at *
  generalize v / 256 / 256 % 256 = r3 at *
  generalize v / 256 / 256 = q2 at *
  generalize v / 256 % 256 = r2 at *
  generalize v / 256 = q1 at *
  generalize v % 256 = r1 at *
  omega

theorem swap16_swap16 {v : Nat} (h : v < 2 ^ 16) : swap16 (swap16 v) = v := by
  have e : ∀ a b : Nat, a < 256 → b < 256 → swap16 (a * 256 + b) = b * 256 + a := by
    intro a b ha hb
    unfold swap16
    rw [show (a * 256 + b) % 256 = b by omega, show (a * 256 + b) / 256 % 256 = a by omega]
  have h0 : swap16 v = v % 256 * 256 + v / 256 % 256 := rfl
  rw [h0, e _ _ (by omega) (by omega)]
  omega

/-! ## Signature -/

/-- The signature is written in the order of the machine, and read in that of the standard. -/
theorem c79_signature_partial (big : Bool) (v : Nat) (hv : v < 2 ^ 32) :
    runW 12 (putSignature big v) = .ok (box (fcc 'j' 'P' ' ' ' ') (be 4 (if big then v else swap32 v))) ∧
    ∀ rest, ∃ h, parseAtom getSignature (box (fcc 'j' 'P' ' ' ' ') (be 4 v) ++ rest) = .ok (v, h, rest) := by
  have ht : fcc 'j' 'P' ' ' ' ' = typeSignature := by decide
  refine ⟨?_, fun rest => ?_⟩
  · have he : EmitsFull (putSignature big v) (be 4 12 ++ be 4 typeSignature ++ (mem big v).take 4) := by
      unfold putSignature putMem
      exact (emits_serBase 12 typeSignature).then (Emits.thenAssert (emits_bytes _))
    rw [mem_four] at he
    rw [ht]
    have := he.runW (size := 12) (by simp) (by decide)
    rw [this]
    rfl
  · rw [ht, Ent.box_eq]
    exact ⟨_, parseAtom_small (body := getSignature) (v := v) ((parses_get32' hv).at _) (by rfl) (by simp) (by decide) (by decide) rest⟩

/-- On a little-endian machine the file of a new movie has the wrong signature. -/
theorem c79_signature_wrong : runW 12 (putSignature false signature) =
    .ok (box (fcc 'j' 'P' ' ' ' ') [0x0A, 0x87, 0x0A, 0x0D]) ∧
    runW 12 (putSignature true signature) = .ok (box (fcc 'j' 'P' ' ' ' ') [0x0D, 0x0A, 0x87, 0x0A]) := by
  decide +kernel

/-! ## Image header -/

/-- An image header is read as it is in the file. -/
theorem c79_image_read (x : Ihdr) (h : x.Fits) (rest : Bytes) :
    ∃ hd, parseAtom Ihdr.parse (x.layout ++ rest) = .ok (x, hd, rest) := by
  have ht : fcc 'i' 'h' 'd' 'r' = typeIhdr := by decide
  unfold Ihdr.layout
  have hb : Parses (Ihdr.parse ⟨8 + x.payload.length, typeIhdr, [], 0, 8⟩) x.payload x := by
    unfold Ihdr.parse Ihdr.payload
    exact (parses_get32' h.height).bind ((parses_get32' h.width).bind ((parses_get16' h.compCount).bind
      ((parses_get8' h.compBits).bind ((parses_get8' h.compressionType).bind ((parses_get8' h.colorspaceKnown).bind
      ((parses_get8' h.ip).bind_nil (parses_pure _)))))))
  rw [ht, Ent.box_eq]
  exact ⟨_, parseAtom_small (hb.at _) rfl (by simp [Ihdr.payload]) (by decide) (by decide) rest⟩

/-- What is written. -/
theorem c79_image_written (big : Bool) (x : Ihdr) : runW 22 (x.serialize big) = .ok (x.turned big).layout := by
  have ht : fcc 'i' 'h' 'd' 'r' = typeIhdr := by decide
  have he : EmitsFull (x.serialize big) (be 4 22 ++ be 4 typeIhdr ++ (x.turned big).payload) := by
    unfold Ihdr.serialize putMem
    have e := (emits_serBase 22 typeIhdr).then ((emits_bytes ((mem big x.height).take 4)).then
      ((emits_bytes ((mem big x.width).take 4)).then ((emits_bytes ((mem big x.compCount).take 2)).then
      ((emits_bytes ((mem big x.compBits).take 1)).then ((emits_bytes ((mem big x.compressionType).take 1)).then
      ((emits_bytes ((mem big x.colorspaceKnown).take 1)).then (Emits.thenAssert (emits_bytes ((mem big x.ip).take 1)))))))))
    have hp : (x.turned big).payload = (mem big x.height).take 4 ++ ((mem big x.width).take 4 ++ ((mem big x.compCount).take 2 ++
        ((mem big x.compBits).take 1 ++ ((mem big x.compressionType).take 1 ++ ((mem big x.colorspaceKnown).take 1 ++
        (mem big x.ip).take 1))))) := by
      simp only [mem_four, mem_two, mem_one]
      cases big <;> rfl
    rw [hp]
    simpa using e
  have := he.runW (size := 22) (by simp [Ihdr.payload]) (by decide)
  rw [this]
  unfold Ihdr.layout
  rw [ht]
  rfl

theorem Ihdr.turned_fits {big : Bool} {x : Ihdr} (h : x.Fits) : (x.turned big).Fits := by
  have := h.height; have := h.width; have := h.compCount; have := h.compBits; have := h.compressionType
  have := h.colorspaceKnown; have := h.ip
  unfold turned
  cases big
  · exact ⟨swap32_lt _, swap32_lt _, swap16_lt _, h.compBits, h.compressionType, h.colorspaceKnown, h.ip⟩
  · refine ⟨h.height, h.width, ?_, ?_, ?_, ?_, ?_⟩ <;> simp only [if_true] <;> omega

/-- It is what the standard says only for a header whose numbers are the same in both orders, or, on a big-endian machine, whose
small fields are 0. -/
theorem c79_image_iff_partial (big : Bool) (x : Ihdr) (h : x.Fits) : runW 22 (x.serialize big) = .ok x.layout ↔
    if big then x.compCount = 0 ∧ x.compBits = 0 ∧ x.compressionType = 0 ∧ x.colorspaceKnown = 0 ∧ x.ip = 0
    else swap32 x.height = x.height ∧ swap32 x.width = x.width ∧ swap16 x.compCount = x.compCount := by
  rw [c79_image_written]
  have h1 : (Res.ok (x.turned big).layout = Res.ok x.layout) ↔ x.turned big = x := by
    constructor
    · intro e
      obtain ⟨hd, r1⟩ := c79_image_read x h []
      obtain ⟨hd', r2⟩ := c79_image_read (x.turned big) (Ihdr.turned_fits h) []
      rw [Res.ok.inj e] at r2
      rw [r2] at r1
      exact (congrArg Prod.fst (Res.ok.inj r1) : _)
    · intro e; rw [e]
  rw [h1]
  obtain ⟨a, b, c, d, e, f, g⟩ := x
  have := h.compCount; have := h.compBits; have := h.compressionType
  have := h.colorspaceKnown; have := h.ip
  unfold Ihdr.turned
  cases big
  · simp
  · simp only [if_true, Ihdr.mk.injEq, true_and] at *
    omega

/-- On a little-endian machine, what is written and read twice is right again. -/
theorem c79_image_twice (x : Ihdr) (h : x.Fits) : (x.turned false).turned false = x := by
  obtain ⟨a, b, c, d, e, f, g⟩ := x
  simp only [Ihdr.turned, Bool.false_eq_true, if_false, swap32_swap32 h.height, swap32_swap32 h.width, swap16_swap16 h.compCount]

/-! ## Bits per component -/

/-- A new box has an item already: what is added comes after it. -/
theorem c79_bits_extra (items : List Nat) (h : ∀ b ∈ items, b < 2 ^ 8) : items.foldl addBpcc newBpcc = 0 :: items := by
  have : ∀ (items l : List Nat), (∀ b ∈ items, b < 2 ^ 8) → items.foldl addBpcc l = l ++ items := by
    intro items
    induction items with
    | nil => intro l _; simp
    | cons b items ih =>
      intro l hb
      have hb' := hb b (by simp)
      rw [List.foldl_cons, ih _ fun c hc => hb c (by simp [hc])]
      unfold addBpcc
      rw [Nat.mod_eq_of_lt (by omega)]
      simp
  rw [this items newBpcc h]
  rfl

theorem bpcc_size {l : List Nat} (hs : l.length < 2 ^ 32 - 8) : bpccSize l = 8 + l.length := by
  unfold bpccSize; omega

/-- The items survive if there is room behind the block they are read into. -/
theorem c79_bits_partial (l : List Nat) (hl : l ≠ []) (hb : ∀ b ∈ l, b < 2 ^ 8) (hs : l.length < 2 ^ 32 - 8) :
    BoxRoundTrip (bpccSize l) (putBpcc l) (getBpcc true) l (layoutBpcc l) := by
  have ht : fcc 'b' 'p' 'c' 'c' = typeBpcc := by decide
  have h0 : l.length ≠ 0 := fun h => hl (List.eq_nil_of_length_eq_zero h)
  unfold layoutBpcc putBpcc
  rw [ht]
  refine BoxRoundTrip.of (type := typeBpcc) ?_ ?_ (by rw [bytes_length, bpcc_size hs]) (by rw [bpcc_size hs]; omega) (by decide) (by decide)
  · exact (emits_serBase _ _).then (Emits.thenAssert (Emits.each l fun b _ => emits_put8 b))
  · unfold getBpcc
    refine parsesAt_bytesRead ?_
    simp only
    have e : w32(bpccSize l + 4294967296 - 8) = l.length := by rw [bpcc_size hs]; omega
    rw [e, if_neg h0]
    exact (parses_stores hb rfl (.inl rfl)).at _

/-- Without, reading any such box writes past the end of the block. -/
theorem c79_bits_overrun (l : List Nat) (hl : l ≠ []) (hb : ∀ b ∈ l, b < 2 ^ 8) (hs : l.length < 2 ^ 32 - 8) (rest : Bytes) :
    parseAtom (getBpcc false) (layoutBpcc l ++ rest) = .ub := by
  have ht : fcc 'b' 'p' 'c' 'c' = typeBpcc := by decide
  have h0 : l.length ≠ 0 := fun h => hl (List.eq_nil_of_length_eq_zero h)
  unfold layoutBpcc
  rw [ht]
  refine Ent.parseAtom_ub ?_ (by rw [bytes_length]; omega) (by unfold Ent.GoodType; decide)
  unfold getBpcc
  show (if w32(8 + (l.flatMap (be 1)).length + 4294967296 - 8) = 0 then P.fail .badData else _ : P (List Nat)) _ = _
  have e : w32(8 + (l.flatMap (be 1)).length + 4294967296 - 8) = l.length := by rw [bytes_length]; omega
  rw [e, if_neg h0]
  exact breaks_stores hb rfl h0 rest

/-- An empty box is refused. -/
theorem c79_bits_empty (room : Bool) (rest : Bytes) : parseAtom (getBpcc room) (layoutBpcc [] ++ rest) = .err .badData := by
  have ht : fcc 'b' 'p' 'c' 'c' = typeBpcc := by decide
  unfold layoutBpcc
  rw [ht]
  refine Ent.parseAtom_err ?_ (by decide) (by unfold Ent.GoodType; decide)
  show (if w32(8 + 0 + 4294967296 - 8) = 0 then P.fail .badData else _ : P (List Nat)) _ = _
  rw [if_pos (by decide)]
  rfl

/-! ## Color specification -/

theorem Colr.size_payload {x : Colr} (h : x.Fits) : x.size = 8 + x.payload.length := by
  have := h.size
  unfold size payload
  simp only [List.length_append, be_length]
  by_cases h1 : x.method = 1
  · rw [if_pos h1, if_pos h1, be_length]
  · rw [if_neg h1, if_neg h1]
    by_cases h2 : x.method = 2
    · rw [if_pos h2, if_pos h2]; omega
    · rw [if_neg h2, if_neg h2]; rfl

theorem Colr.parses {x : Colr} (h : x.Fits) {hd : Hdr} (hs : x.method = 2 → hd.size = 11 + x.profile.length) :
    ParsesAt (Colr.parse hd) 8 x.payload x := by
  have hz := h.size
  unfold Colr.parse Colr.payload
  refine ((parses_get8' h.method).at _).bind (((parses_get8' h.precedence).at _).bind (((parses_get8' h.approx).at _).bind ?_))
  by_cases h1 : x.method = 1
  · rw [if_pos h1, if_pos h1]
    refine ((parses_get32' h.enumCS).at _).bind_nil (((parses_pure _).at _).of_eq rfl ?_)
    have hp := h.profiled (by omega)
    cases x
    simp only at hp
    rw [hp]
  · rw [if_neg h1, if_neg h1]
    by_cases h2 : x.method = 2
    · rw [if_pos h2, if_pos h2]
      refine parsesAt_bytesRead ?_
      have e : w32(hd.size + 4294967296 - (8 + (be 1 x.method).length + (be 1 x.precedence).length + (be 1 x.approx).length)) =
          x.profile.length := by
        rw [hs h2, be_length, be_length, be_length]
        omega
      rw [e]
      refine ((parses_getBytes rfl).at _).bind_nil (((parses_pure _).at _).of_eq rfl ?_)
      have he := h.enumerated h1
      cases x
      simp only at he
      rw [he]
    · rw [if_neg h2, if_neg h2]
      refine ((parses_pure _).at _).of_eq rfl ?_
      have he := h.enumerated h1
      have hp := h.profiled h2
      cases x
      simp only at he hp
      rw [he, hp]

/-- Color specifications survive. -/
theorem c79_colour (x : Colr) (h : x.Fits) :
    BoxRoundTrip x.size x.serialize Colr.parse x (box (fcc 'c' 'o' 'l' 'r') x.payload) := by
  have ht : fcc 'c' 'o' 'l' 'r' = typeColr := by decide
  have hz := Colr.size_payload h
  have hlt : x.size < 4294967296 := by unfold Colr.size; split <;> (try split) <;> omega
  have h3 := h.size
  rw [ht]
  refine BoxRoundTrip.of (type := typeColr) ?_ (Colr.parses h fun h2 => ?_) hz hlt (by decide) (by decide)
  · unfold Colr.payload Colr.serialize
    refine (emits_serBase _ _).then ((emits_put8 _).then ((emits_put8 _).then ((emits_put8 _).then (Emits.thenAssert ?_))))
    split
    · exact emits_put32 _
    · split
      · exact emits_bytes _
      · exact emits_skip
  · show x.size = _
    unfold Colr.size
    rw [if_neg (by omega), if_pos h2]
    omega

/-- What is after the fields of a method other than a profile is lost, e.g. all parameters of the methods the library does not
know. -/
theorem c79_colour_lost (x : Colr) (h : x.Fits) (h2 : x.method ≠ 2) (more : Bytes) (hs : more.length < 2 ^ 32 - 15) (rest : Bytes) :
    (∃ hd, parseAtom Colr.parse (box (fcc 'c' 'o' 'l' 'r') (x.payload ++ more) ++ rest) = .ok (x, hd, rest)) ∧
    runW x.size x.serialize = .ok (box (fcc 'c' 'o' 'l' 'r') x.payload) := by
  refine ⟨?_, (c79_colour x h).1⟩
  have ht : fcc 'c' 'o' 'l' 'r' = typeColr := by decide
  have hl : x.payload.length ≤ 7 := by
    unfold Colr.payload
    rw [if_neg h2]
    split <;> simp only [List.length_append, be_length, List.length_nil] <;> omega
  rw [ht]
  obtain ⟨hd, _, _, hp⟩ := Ent.parseAtom_pad (r := rest) (Colr.parses h (fun e => absurd e h2) (more ++ rest))
    (by simp only [List.length_append]; omega) (show Ent.GoodType typeColr by unfold Ent.GoodType; decide)
  exact ⟨hd, hp⟩

/-! ## H.263 -/

variable {α : Type}

def H263.payload (vendor decoderVersion level profile : Nat) (ks : List (Kid α)) : Bytes :=
  be 4 vendor ++ (be 1 decoderVersion ++ (be 1 level ++ (be 1 profile ++ wire ks)))

theorem kids_size {C : Class α} {ks : List (Kid α)} (h : ∀ k ∈ ks, Survives C k.type k.val k.bytes) {n : Nat}
    (hn : n + (wire ks).length < 4294967296) : listSize C n (vals ks) = n + (wire ks).length := by
  induction ks generalizing n with
  | nil => simp [vals, listSize, wire]
  | cons k ks ih =>
    have h1 := h k (by simp)
    rw [Ent.wire_cons] at hn ⊢
    simp only [List.length_append] at hn ⊢
    show listSize C ((n + C.size k.val) % 4294967296) (vals ks) = _
    rw [h1.size, Nat.mod_eq_of_lt (by omega), ih (fun c hc => h c (by simp [hc])) (by omega)]
    omega

theorem kids_emit {C : Class α} {ks : List (Kid α)} (h : ∀ k ∈ ks, Survives C k.type k.val k.bytes) :
    Emits (serList C (vals ks)) (wire ks) := by
  induction ks with
  | nil => exact emits_skip
  | cons k ks ih =>
    have h1 := h k (by simp)
    rw [Ent.wire_cons]
    exact (emits_nested h1.write h1.size.symm).seq (ih fun c hc => h c (by simp [hc]))

theorem kid_parses {C : Class α} {k : Kid α} (h : Reads C k.type k.val k.bytes) : Parses (getAtom C.parse) k.bytes k.val := by
  intro r n
  obtain ⟨hd, _, hz, hp⟩ := h.2 r
  unfold getAtom
  simp only [hp, hz]

theorem foldl_snoc (l acc : List α) : l.foldl (fun l c => l ++ [c]) acc = acc ++ l := by
  induction l generalizing acc with
  | nil => simp
  | cons a l ih => rw [List.foldl_cons, ih]; simp

/-- The decoder information survives with all boxes in it that do. -/
theorem c79_h263 (C : Class α) (vendor decoderVersion level profile : Nat) (ks : List (Kid α))
    (hk : ∀ k ∈ ks, Survives C k.type k.val k.bytes) (h1 : vendor < 2 ^ 32) (h2 : decoderVersion < 2 ^ 8) (h3 : level < 2 ^ 8)
    (h4 : profile < 2 ^ 8) (hs : (wire ks).length < 2 ^ 32 - 15) :
    BoxRoundTrip ((⟨vendor, decoderVersion, level, profile, vals ks⟩ : H263 α).size C)
      ((⟨vendor, decoderVersion, level, profile, vals ks⟩ : H263 α).serialize C) (H263.parse C)
      ⟨vendor, decoderVersion, level, profile, vals ks⟩
      (box (fcc 'd' '2' '6' '3') (H263.payload vendor decoderVersion level profile ks)) := by
  have ht : fcc 'd' '2' '6' '3' = typeD263 := by decide
  have hz : (⟨vendor, decoderVersion, level, profile, vals ks⟩ : H263 α).size C =
      8 + (H263.payload vendor decoderVersion level profile ks).length := by
    unfold H263.size
    rw [kids_size hk (by omega)]
    simp [H263.payload]; omega
  have hp : (H263.payload vendor decoderVersion level profile ks).length = 7 + (wire ks).length := by
    simp [H263.payload]; omega
  rw [ht]
  refine BoxRoundTrip.of (type := typeD263) ?_ ?_ hz (by omega) (by decide) (by decide)
  · unfold H263.payload
    exact (emits_serBase _ _).then <| (emits_put32 _).then ((emits_put8 _).then ((emits_put8 _).then ((emits_put8 _).then (Emits.thenAssert (kids_emit hk)))))
  · unfold H263.parse H263.payload
    refine ((parses_get32' h1).at _).bind (((parses_get8' h2).at _).bind (((parses_get8' h3).at _).bind
      (((parses_get8' h4).at _).bind ?_)))
    have hw := Snd.parsesAt_while (p := getAtom C.parse) (add := fun l c => l ++ [c]) (acc := ([] : List α))
      (fun k : Kid α => k.bytes) (fun k => k.val) (xs := ks)
      (fun k hk' => ⟨kid_parses (hk k hk').read, fun e => by have := (hk k hk').read.1; rw [e] at this; simp at this⟩)
      (size := (⟨vendor, decoderVersion, level, profile, vals ks⟩ : H263 α).size C) (k := 15) (by
        rw [hz, hp]; show _ = 15 + (wire ks).length; omega)
    rw [foldl_snoc, List.nil_append] at hw
    simp only [be_length, Nat.reduceAdd]
    refine ParsesAt.bind_nil hw ?_
    refine parsesAt_bytesRead ?_
    rw [if_neg (by rw [hz, hp]; show ¬ 15 + (wire ks).length ≠ _; omega)]
    exact (parses_pure _).at _

/-! ## Stereo video -/

theorem Stereo.payload_length (x : Stereo) : x.payload.length = 12 + x.types.length := by
  simp only [payload, List.length_append, be_length, bytes_length]; omega

/-- Reading keeps all but the upper bits of the reserved field, if there is room behind the block for the indication. -/
theorem c79_stereo_read (room : Bool) (version flags : Nat) (x : Stereo) (hv : version < 256) (hf : flags < 2 ^ 24) (h : x.Fits)
    (hr : room = true ∨ x.types = []) (rest : Bytes) :
    ∃ hd, parseAtom (Stvi.parse room) (fullBox (fcc 's' 't' 'v' 'i') version flags x.payload ++ rest) =
      .ok (((version, flags), { x with reserved := x.reserved % 2 ^ 14 }), hd, rest) := by
  have ht : fcc 's' 't' 'v' 'i' = typeStvi := by decide
  have h1 := h.reserved
  have h2 := h.single
  have h3 := h.length
  have hl := x.payload_length
  rw [ht]
  refine Str.fullBox_reads (hb := ?_) (hs := by omega) (ht := by decide) (hu := by decide) (rest := rest)
  unfold Stvi.parse
  refine ((parses_versionFlags hv hf).at _).bind ?_
  unfold Stereo.payload
  refine ((parses_get32' (by omega)).at _).bind (((parses_get32' h.scheme).at _).bind (((parses_get32' (by omega)).at _).bind ?_))
  refine ((parses_stores h.types rfl (hr.imp_right fun e => by rw [e]; rfl)).at _).bind_nil ?_
  refine parsesAt_bytesRead ?_
  rw [if_pos (by simp only [List.length_append, be_length, bytes_length]; omega)]
  have e1 : (x.reserved * 4 + x.single) / 4 = x.reserved := by omega
  have e2 : (x.reserved * 4 + x.single) % 4 = x.single := by omega
  rw [e1, e2]
  exact (parses_pure _).at _

/-- Writing a box as it is read gives the standard's bytes. -/
theorem c79_stereo_written (version flags : Nat) (x : Stereo) (h : x.Fits) :
    runW x.mem.size (x.mem.serialize version flags) = .ok (fullBox (fcc 's' 't' 'v' 'i') version flags x.payload) := by
  have ht : fcc 's' 't' 'v' 'i' = typeStvi := by decide
  have h1 := h.reserved
  have h2 := h.single
  have h3 := h.length
  have hz : x.mem.size = 12 + x.payload.length := by
    rw [x.payload_length]; unfold Stvi.size Stereo.mem; simp only; omega
  have e : w32(x.reserved * 4 + x.single) = x.reserved * 4 + x.single := by omega
  have he : EmitsFull (x.mem.serialize version flags)
      (be 4 x.mem.size ++ be 4 typeStvi ++ (be 1 version ++ be 3 flags) ++ x.payload) := by
    unfold Stvi.serialize
    rw [if_pos (by omega)]
    simp only [Stereo.mem] at *
    rw [e]
    have := (emits_serFull (Stvi.size ⟨x.reserved, x.single, x.scheme, x.types.length, x.types, []⟩) typeStvi version flags).then
      ((emits_put32 (x.reserved * 4 + x.single)).then ((emits_put32 x.scheme).then ((emits_put32 x.types.length).then
      ((emits_sizes x.types).then (Emits.thenAssert emits_skip)))))
    simp only [List.append_nil] at this
    simp only [List.append_assoc] at this ⊢
    exact this
  have hl := x.payload_length
  rw [he.runW (by rw [hz]; simp only [List.length_append, be_length]) (by rw [hz, hl]; omega), ht, hz, Str.fullBox_eq]
  simp only [List.append_assoc]

/-- Together: what is read is what was written if the upper bits of the reserved field are 0. -/
theorem c79_stereo_partial (version flags : Nat) (x : Stereo) (hv : version < 256) (hf : flags < 2 ^ 24) (h : x.Fits)
    (h0 : x.reserved < 2 ^ 14) :
    BoxRoundTrip x.mem.size (x.mem.serialize version flags) (Stvi.parse true) ((version, flags), x)
      (fullBox (fcc 's' 't' 'v' 'i') version flags x.payload) := by
  refine ⟨c79_stereo_written version flags x h, ?_, fun rest => ?_⟩
  · have := h.length
    rw [Snd.fullBox_length, x.payload_length]
    unfold Stvi.size Stereo.mem
    simp only
    omega
  · obtain ⟨hd, hp⟩ := c79_stereo_read true version flags x hv hf h (.inl rfl) rest
    rw [Nat.mod_eq_of_lt h0] at hp
    exact ⟨hd, hp⟩

/-- Reading an indication of one or more bytes without room behind its block writes past its end. -/
theorem c79_stereo_overrun (version flags : Nat) (x : Stereo) (hv : version < 256) (hf : flags < 2 ^ 24) (h : x.Fits)
    (ht : x.types ≠ []) (rest : Bytes) :
    parseAtom (Stvi.parse false) (fullBox (fcc 's' 't' 'v' 'i') version flags x.payload ++ rest) = .ub := by
  have ht' : fcc 's' 't' 'v' 'i' = typeStvi := by decide
  have h1 := h.reserved
  have h2 := h.single
  have h3 := h.length
  have hl := x.payload_length
  rw [ht']
  refine Str.fullBox_breaks ?_ (by omega) (by decide) (by decide) rest
  unfold Stvi.parse
  refine Str.BreaksAt.bind ((parses_versionFlags hv hf).at _) ?_
  unfold Stereo.payload
  refine .bind ((parses_get32' (by omega)).at _) (.bind ((parses_get32' h.scheme).at _) (.bind ((parses_get32' (by omega)).at _) ?_))
  exact Str.BreaksAt.first (breaks_stores h.types rfl fun e => ht (List.eq_nil_of_length_eq_zero e))

/-- Boxes in the box, which the standard allows, or any other bytes: reading fails an assertion. -/
theorem c79_stereo_boxes_read (room : Bool) (version flags : Nat) (x : Stereo) (hv : version < 256) (hf : flags < 2 ^ 24) (h : x.Fits)
    (more : Bytes) (hm : more ≠ []) (hs : x.types.length + more.length < 2 ^ 32 - 24) (rest : Bytes) :
    parseAtom (Stvi.parse room) (fullBox (fcc 's' 't' 'v' 'i') version flags (x.payload ++ more) ++ rest) = .ub := by
  have ht' : fcc 's' 't' 'v' 'i' = typeStvi := by decide
  have h1 := h.reserved
  have h2 := h.single
  have h3 := h.length
  have hl := x.payload_length
  have hm' : 0 < more.length := List.length_pos_iff.2 hm
  rw [ht']
  refine Str.fullBox_breaks ?_ (by simp only [List.length_append]; omega) (by decide) (by decide) rest
  unfold Stvi.parse
  refine Str.BreaksAt.bind ((parses_versionFlags hv hf).at _) ?_
  have e : x.payload ++ more = be 4 (x.reserved * 4 + x.single) ++ (be 4 x.scheme ++ (be 4 x.types.length ++
      (x.types.flatMap (be 1) ++ more))) := by unfold Stereo.payload; simp only [List.append_assoc]
  rw [e]
  refine .bind ((parses_get32' (by omega)).at _) (.bind ((parses_get32' h.scheme).at _) (.bind ((parses_get32' (by omega)).at _) ?_))
  by_cases hr : room = true ∨ x.types.length = 0
  · refine .bind ((parses_stores h.types rfl hr).at _) ?_
    intro r
    rw [P.bind_apply]
    show (if _ = _ then _ else P.bad : P _) _ = _
    rw [if_neg]
    · rfl
    · simp only [List.length_append, be_length, bytes_length]; omega
  · have hr' : room = false ∧ x.types.length ≠ 0 := by
      cases room
      · exact ⟨rfl, fun e => hr (.inr e)⟩
      · exact absurd (.inl rfl) hr
    rw [hr'.1]
    intro r
    rw [List.append_assoc]
    exact Str.BreaksAt.first (breaks_stores h.types rfl hr'.2) _

theorem then_runs {a b : W} {x : Bytes} (ha : Emits a x) {s : WS} (h1 : s.out.length + x.length ≤ s.size)
    (h2 : s.size < 4294967296) : (a ;; b) s = b { s with out := s.out ++ x } := by
  unfold W.seq
  rw [ha s (by omega) (by omega), if_pos h1]
  rfl

/-- A box that was added, of any size but 0, makes the box unwritable. -/
theorem c79_stereo_boxes (version flags : Nat) (x : Stereo) (h : x.Fits) (k : Nat × W) (ks : List (Nat × W)) (hk : 0 < k.1)
    (hs : x.types.length + k.1 < 2 ^ 32 - 24) :
    runW x.mem.size ({ x.mem with kids := k :: ks }.serialize version flags) = .err .ioErr := by
  have h1 := h.reserved
  have h2 := h.single
  have hz : x.mem.size = 24 + x.types.length := by unfold Stvi.size Stereo.mem; simp only; omega
  have hz' : Stvi.size ⟨x.reserved, x.single, x.scheme, x.types.length, x.types, k :: ks⟩ = 24 + x.types.length := hz
  unfold runW Stvi.serialize Stereo.mem
  simp only
  rw [hz', if_pos (by omega), show Stvi.size ⟨x.reserved, x.single, x.scheme, x.types.length, x.types, []⟩ = 24 + x.types.length from hz]
  rw [then_runs (emits_serFull _ _ _ _) (by simp only [List.length_append, be_length, bytes_length, List.length_nil]; omega) (by simp only; omega),
    then_runs (emits_put32 _) (by simp only [List.length_append, be_length, bytes_length, List.length_nil]; omega) (by simp only; omega),
    then_runs (emits_put32 _) (by simp only [List.length_append, be_length, bytes_length, List.length_nil]; omega) (by simp only; omega),
    then_runs (emits_put32 _) (by simp only [List.length_append, be_length, bytes_length, List.length_nil]; omega) (by simp only; omega),
    then_runs (emits_sizes _) (by simp only [List.length_append, be_length, bytes_length, List.length_nil]; omega) (by simp only; omega)]
  have : ∀ o : Bytes, o.length = 24 + x.types.length → (W.each (fun k : Nat × W => nested k.1 k.2) (k :: ks) ;; W.assertFull)
      ⟨o, 24 + x.types.length⟩ = .err .ioErr := by
    intro o ho
    show ((nested k.1 k.2 ⟨o, 24 + x.types.length⟩).bind _).bind _ = _
    unfold nested
    rw [if_pos (by simp only [ho]; omega)]
    rfl
  rw [this _ (by simp only [List.length_append, be_length, bytes_length, List.length_nil])]

/-! ## Cases -/

/-- An image of 480 by 640 with three components of 8 bits, as a little-endian machine writes it. -/
example : runW 22 (Ihdr.serialize false ⟨480, 640, 3, 7, 7, 0, 0⟩) =
    .ok (box (fcc 'i' 'h' 'd' 'r') [0xE0, 1, 0, 0, 0x80, 2, 0, 0, 3, 0, 7, 7, 0, 0]) := by decide +kernel

/-- As a big-endian machine writes it: no components of 1 bit. -/
example : runW 22 (Ihdr.serialize true ⟨480, 640, 3, 7, 7, 0, 0⟩) =
    .ok (box (fcc 'i' 'h' 'd' 'r') [0, 0, 1, 0xE0, 0, 0, 2, 0x80, 0, 0, 0, 0, 0, 0]) := by decide +kernel

example : Ihdr.Fits ⟨480, 640, 3, 7, 7, 0, 0⟩ := by constructor <;> decide

/-- A header that a little-endian machine writes as it should. -/
example : runW 22 (Ihdr.serialize false ⟨0x01000001, 0x01000001, 0x0101, 7, 7, 0, 0⟩) =
    .ok (Ihdr.layout ⟨0x01000001, 0x01000001, 0x0101, 7, 7, 0, 0⟩) := by decide +kernel

example : [7, 7, 7].foldl addBpcc newBpcc = [0, 7, 7, 7] := by decide

example : BoxRoundTrip (bpccSize [7, 7, 7]) (putBpcc [7, 7, 7]) (getBpcc true) [7, 7, 7] (layoutBpcc [7, 7, 7]) :=
  c79_bits_partial _ (by decide) (by decide) (by decide)

example : Colr.Fits ⟨1, 0, 0, 16, []⟩ := by constructor <;> decide
example : Colr.Fits ⟨2, 0, 0, 0, [1, 2, 3]⟩ := by constructor <;> decide

/-- The colours of ISO base media files, `nclx`, are not known: 'n' is taken for the method. -/
example : parseAtom Colr.parse (box (fcc 'c' 'o' 'l' 'r') [0x6e, 0x63, 0x6c, 0x78, 0, 1, 0, 1, 0, 1, 0x80]) =
    .ok (⟨0x6e, 0x63, 0x6c, 0, []⟩, ⟨19, fcc 'c' 'o' 'l' 'r', [], 0, 8⟩, []) := by decide +kernel

/-- Bit rates in the decoder information, and free space that is kept: here as boxes of bytes. -/
def raw : Class (Nat × Bytes) where
  parse h := do
    let b ← getBytes (h.size - 8)
    pure (h.type, b)
  size x := 8 + x.2.length
  ser x := serBase (8 + x.2.length) x.1 ;; putBytes x.2 ;; W.assertFull

example : runW (H263.size raw ⟨0x56455221, 0, 10, 0, [(fcc 'f' 'r' 'e' 'e', [5])]⟩)
    (H263.serialize raw ⟨0x56455221, 0, 10, 0, [(fcc 'f' 'r' 'e' 'e', [5])]⟩) =
    .ok (box (fcc 'd' '2' '6' '3') ([0x56, 0x45, 0x52, 0x21, 0, 10, 0] ++ box (fcc 'f' 'r' 'e' 'e') [5])) ∧
    (parseAtom (H263.parse raw) (box (fcc 'd' '2' '6' '3') ([0x56, 0x45, 0x52, 0x21, 0, 10, 0] ++ box (fcc 'f' 'r' 'e' 'e') [5]))) =
      .ok (⟨0x56455221, 0, 10, 0, [(fcc 'f' 'r' 'e' 'e', [5])]⟩, ⟨24, fcc 'd' '2' '6' '3', [], 0, 8⟩, []) := by
  decide +kernel

example : Stereo.Fits ⟨0, 1, 2, [0, 0, 0, 2]⟩ := by constructor <;> decide

example : BoxRoundTrip 28 (Stereo.mem ⟨0, 1, 2, [0, 0, 0, 2]⟩ |>.serialize 0 0) (Stvi.parse true) ((0, 0), ⟨0, 1, 2, [0, 0, 0, 2]⟩)
    (fullBox (fcc 's' 't' 'v' 'i') 0 0 [0, 0, 0, 1, 0, 0, 0, 2, 0, 0, 0, 4, 0, 0, 0, 2]) :=
  c79_stereo_partial 0 0 ⟨0, 1, 2, [0, 0, 0, 2]⟩ (by decide) (by decide) (by constructor <;> decide) (by decide)

end Verif.Jp2
