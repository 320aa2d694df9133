import Verif.Lemmas.Sound

/-!
# C72: channel layout, downmix instructions and loudness

`room` says whether the allocator gives some bytes more than asked for; reading stores over the end of two small blocks.
-/

namespace Verif.Snd

open Verif.Ent (Class Kid Reads Survives)
open Verif.Str (fullBox_reads fullBox_breaks)
open Verif.Rows (VF)

variable {α : Type}

/-! ## Channel layout, version 0 -/

/-- An atom that holds a scene is written as the scene. -/
theorem c72_layout_write (s : Scene0) (hf : s.Fits) (x : Chnl) (h : s.Held x) (flags : Nat) :
    x.size 0 = .ok (12 + s.wire.length) ∧
    runW (12 + s.wire.length) (x.serialize 0 flags) = .ok (fullBox (fcc 'c' 'h' 'n' 'l') 0 flags s.wire) :=
  ⟨Scene0.size hf h, Scene0.emits hf h flags⟩

/-- The scene is read from the box, unless the positions are listed and a number of objects follows. -/
theorem c72_layout_read (s : Scene0) (hf : s.Fits) (room : Bool) (hr : s.part.Safe room) (flags : Nat)
    (hfl : flags < 16777216) (hno : s.objects = none ∨ ∀ ss, s.part ≠ .listed ss) (rest : Bytes) :
    ∃ h, parseAtom (Chnl.parse room) (fullBox (fcc 'c' 'h' 'n' 'l') 0 flags s.wire ++ rest) =
      .ok (((0, flags), s.mem), h, rest) :=
  fullBox_reads (Scene0.parses hf hr hfl hno) (by have := Scene0.wire_le hf; omega) (by decide) (by decide) rest

/-- With listed positions and a number of objects the box cannot be read: the loop over the positions takes the number as
one more position, and the number is sought after the end of the box. -/
theorem c72_layout_objects (s : Scene0) (hf : s.Fits) (ss : List Speaker) (hp : s.part = .listed ss) (n : Nat)
    (hn : s.objects = some n) (room : Bool) (flags : Nat) (hfl : flags < 16777216) (rest : Bytes) (v : VF × Chnl) (h : Hdr)
    (r : Bytes) :
    parseAtom (Chnl.parse room) (fullBox (fcc 'c' 'h' 'n' 'l') 0 flags s.wire ++ rest) ≠ .ok (v, h, r) := by
  intro he
  have hl := Scene0.wire_le hf
  rw [Str.fullBox_eq] at he
  unfold parseAtom at he
  rw [List.append_assoc, parseHeader_small (by omega) (by omega) (by decide) (by decide) _ (by simp; omega)] at he
  simp only at he
  split at he
  · rename_i e
    unfold Chnl.parse at e
    rw [P.bind_apply, List.append_assoc, parses_versionFlags (by decide) hfl] at e
    simp only [if_true] at e
    exact Scene0.noObjects hp (by rw [hn]; rfl) hf.1 e
  · cases he
  · cases he

/-- Listed positions that were read are lost when the box is written again, because the number of channels is not known. -/
theorem c72_layout_lost (s : Scene0) (hf : s.Fits) (ss : List Speaker) (hp : s.part = .listed ss) (hn : s.objects = none)
    (flags : Nat) :
    runW 14 (s.mem.serialize 0 flags) = .ok (fullBox (fcc 'c' 'h' 'n' 'l') 0 flags (be 1 s.bits ++ be 1 0)) := by
  have := Scene0.emits (s := ⟨s.other, .listed [], none⟩) ⟨hf.1, ⟨by decide, by simp⟩, by simp⟩ (x := s.mem)
    ⟨by simp [Scene0.mem, hp, Scene0.bits, hn, Part0.bit], by simp [Scene0.mem, hp], by simp⟩ flags
  simpa [Scene0.wire, Part0.wire, placesWire, Scene0.bits, Part0.bit, hp, hn] using this

/-- More channels than positions: the size is computed through a pointer that was never set. -/
theorem c72_layout_short (x : Chnl) (h0 : x.structure_ % 2 = 1) (h1 : x.definedLayout = 0)
    (h2 : x.layouts.length < x.channelCount) (size flags : Nat) :
    x.size 0 = .ub ∧ runW size (x.serialize 0 flags) = .ub := by
  have hs : x.size 0 = .ub := by
    unfold Chnl.size
    rw [if_pos rfl, if_pos (show x.channels from h0), if_pos h1, entries, if_neg (by omega)]
    rfl
  refine ⟨hs, ?_⟩
  unfold Chnl.serialize
  rw [hs]
  rfl

/-- A position with angles, and no room: bytes are stored after the block. -/
theorem c72_layout_angles (s : Scene0) (hf : s.Fits) (ss : List Speaker) (hp : s.part = .listed ss)
    (he : ∃ x ∈ ss, x.position = 126) (flags : Nat) (hfl : flags < 16777216) (rest : Bytes) :
    parseAtom (Chnl.parse false) (fullBox (fcc 'c' 'h' 'n' 'l') 0 flags s.wire ++ rest) = .ub :=
  fullBox_breaks (Scene0.breaks hf hp he hfl) (by have := Scene0.wire_le hf; omega) (by decide) (by decide) rest

/-! ## Channel layout, later versions -/

/-- Later versions survive. -/
theorem c72_layout1 (s : Scene1) (hf : s.Fits) (room : Bool) (hr : s.part.Safe room) (version flags : Nat)
    (hv : 0 < version) (hv' : version < 256) (hfl : flags < 16777216) :
    s.mem.size version = .ok (12 + s.wire.length) ∧
    BoxRoundTrip (12 + s.wire.length) (s.mem.serialize version flags) (Chnl.parse room) ((version, flags), s.mem)
      (fullBox (fcc 'c' 'h' 'n' 'l') version flags s.wire) := by
  have hs := Scene1.size hf (version := version) (by omega)
  refine ⟨hs, ?_⟩
  have hl := Scene1.wire_le hf
  unfold Chnl.serialize
  rw [hs]
  simp only
  rw [if_neg (show ¬ version = 0 by omega)]
  exact BoxRoundTrip.ofFull (type := typeChnl) (Scene1.emits hf).thenAssert
    (Scene1.parses hf hr (by omega) hv' hfl) rfl (by omega) (by decide) (by decide)

/-- The same without room. -/
theorem c72_layout1_angles (s : Scene1) (hf : s.Fits) (ss : List Speaker) (hp : s.part = .listed ss)
    (he : ∃ x ∈ ss, x.position = 126) (version flags : Nat) (hv : 0 < version) (hv' : version < 256)
    (hfl : flags < 16777216) (rest : Bytes) :
    parseAtom (Chnl.parse false) (fullBox (fcc 'c' 'h' 'n' 'l') version flags s.wire ++ rest) = .ub :=
  fullBox_breaks (Scene1.breaks hf hp he (by omega) hv' hfl) (by have := Scene1.wire_le hf; omega) (by decide) (by decide)
    rest

/-- A box with bytes after the last field fails an assertion. -/
theorem c72_layout1_extra (s : Scene1) (hf : s.Fits) (room : Bool) (hr : s.part.Safe room) (version flags : Nat)
    (hv : 0 < version) (hv' : version < 256) (hfl : flags < 16777216) (x : Bytes) (hx : x ≠ [])
    (hl : 12 + s.wire.length + x.length < 4294967296) (rest : Bytes) :
    parseAtom (Chnl.parse room) (fullBox (fcc 'c' 'h' 'n' 'l') version flags (s.wire ++ x) ++ rest) = .ub :=
  fullBox_breaks (Scene1.extra hf hr (by omega) hv' hfl hx) (by simp only [List.length_append]; omega) (by decide)
    (by decide) rest

/-- More channels than positions. -/
theorem c72_layout1_short (x : Chnl) (h0 : x.structure_ % 2 = 1) (h1 : x.definedLayout = 0)
    (h2 : x.layouts.length < x.layoutChannelCount) (version : Nat) (hv : 0 < version) (size flags : Nat) :
    x.size version = .ub ∧ runW size (x.serialize version flags) = .ub := by
  have hs : x.size version = .ub := by
    unfold Chnl.size
    rw [if_neg (by omega), if_pos (show x.channels from h0), if_pos h1, entries, if_neg (by omega)]
    rfl
  refine ⟨hs, ?_⟩
  unfold Chnl.serialize
  rw [hs]
  rfl

/-! ## Downmix instructions -/

/-- The coefficients are written four bits each, and an odd number of them is padded. -/
theorem c72_downmix_write (x : Dmix) (v f : Nat) (hi : x.inStream = 0)
    (hn : x.coefficients.length = x.baseChannelCount * x.targetChannelCount) (hs : x.coefficients.length < 8589934000) :
    x.size = 15 + (pack x.coefficients).length ∧
    runW x.size (x.serialize v f) = .ok (fullBox (fcc 'd' 'm' 'i' 'x') v f (x.head ++ pack x.coefficients)) := by
  have := Dmix.writes x v f hn.symm hi (Nat.le_refl _) hs
  rw [List.take_length, List.length_append, Dmix.head_length] at this
  exact ⟨by omega, this.2⟩

/-- Coefficients in the stream: none is written. -/
theorem c72_downmix_stream (x : Dmix) (v f : Nat) (hi : x.inStream ≠ 0) :
    runW x.size (x.serialize v f) = .ok (fullBox (fcc 'd' 'm' 'i' 'x') v f x.head) := Dmix.writesIn x v f hi

/-- What is read: all the bytes after the third are coefficients, and of more than 65536 coefficients the block holds only
the last. The number of base channels is not known. -/
theorem c72_downmix_read (x : Dmix) (h : x.Fits) (v f : Nat) (hv : v < 256) (hf : f < 16777216) (tail : Bytes)
    (hl : 15 + tail.length < 4294967296) (rest : Bytes) :
    ∃ hd, parseAtom Dmix.parse (fullBox (fcc 'd' 'm' 'i' 'x') v f (x.head ++ tail) ++ rest) =
      .ok (((v, f), ⟨0, x.layout, x.reserved, x.targetChannelCount, x.inStream, x.id, lastBlock (halves tail)⟩), hd, rest) :=
  fullBox_reads (Dmix.parses h hv hf tail) (by rw [List.length_append, Dmix.head_length]; omega) (by decide) (by decide) rest

/-- Up to 65536 coefficients come back, with the padding. -/
theorem c72_downmix_round (x : Dmix) (h : x.Fits) (v f : Nat) (hv : v < 256) (hf : f < 16777216) (hi : x.inStream = 0)
    (hn : x.coefficients.length = x.baseChannelCount * x.targetChannelCount) (hs : x.coefficients.length ≤ 65536)
    (hc : ∀ c ∈ x.coefficients, c < 16) (rest : Bytes) :
    ∃ bytes hd, runW x.size (x.serialize v f) = .ok bytes ∧ parseAtom Dmix.parse (bytes ++ rest) =
      .ok (((v, f), { x with baseChannelCount := 0, coefficients := padded x.coefficients }), hd, rest) := by
  have hw := (c72_downmix_write x v f hi hn (by omega)).2
  obtain ⟨hd, hr⟩ := c72_downmix_read x h v f hv hf (pack x.coefficients) (by rw [pack_length]; omega) rest
  refine ⟨_, hd, hw, ?_⟩
  rw [hr, halves_pack _ hc, lastBlock_short]
  unfold padded
  split
  · simp only [List.length_append, List.length_singleton]; omega
  · exact hs

/-- What was read is written without its coefficients. -/
theorem c72_downmix_lost (x : Dmix) (v f : Nat) (hb : x.baseChannelCount = 0) :
    runW x.size (x.serialize v f) = .ok (fullBox (fcc 'd' 'm' 'i' 'x') v f x.head) := by
  by_cases hi : x.inStream = 0
  · have := (Dmix.writes x v f (n := 0) (by rw [hb, Nat.zero_mul]) hi (by omega) (by decide)).2
    simpa [pack] using this
  · exact Dmix.writesIn x v f hi

/-- Fewer coefficients than channels times channels. -/
theorem c72_downmix_short (x : Dmix) (v f : Nat) (hi : x.inStream = 0)
    (hn : x.coefficients.length < x.baseChannelCount * x.targetChannelCount)
    (hs : x.baseChannelCount * x.targetChannelCount < 8589934000) : runW x.size (x.serialize v f) = .ub := by
  have hz : 15 ≤ x.size ∧ x.size < 4294967296 := by
    unfold Dmix.size
    rw [if_pos hi]
    omega
  unfold Dmix.serialize runW
  rw [if_pos hi, if_neg (by omega)]
  have e := ((emits_serFull x.size typeDmix v f).seq ((emits_put8 x.layout).seq
    ((emits_put8 w8(x.reserved * 128 + x.targetChannelCount)).seq (emits_put8 w8(x.inStream * 128 + x.id)))))
    ⟨[], x.size⟩ (by simp) (by simp)
  rw [if_pos (by simp; omega)] at e
  have e2 : ∀ (a b c d k : W), (a ;; b ;; c ;; d ;; k) = ((a ;; b ;; c ;; d) ;; k) := by
    intro a b c d k; simp only [seq_assoc]
  rw [e2]
  unfold W.seq at e ⊢
  rw [e]
  rfl

/-- A coefficient of more than four bits changes the one before it. -/
theorem c72_downmix_spill : pack [2, 19] = pack [3, 3] := by decide

/-! ## Loudness -/

/-- The loudness of a track or of an album survives. -/
theorem c72_loudness (x : Lou) (h : x.Fits) (hl : x.Levels) (room : Bool) (hr : x.Safe room) (type : Nat)
    (ht : type = fcc 't' 'l' 'o' 'u' ∨ type = fcc 'a' 'l' 'o' 'u') (v f : Nat) (hv : v < 256) (hf : f < 16777216) :
    BoxRoundTrip x.size (x.serialize type v f) (Lou.parse room) ((v, f), x) (fullBox type v f x.wire) := by
  have hg : Ent.GoodType type := by rcases ht with rfl | rfl <;> (unfold Ent.GoodType; decide)
  exact Sound.trip ⟨hv, hf, h, hl, hr⟩ hg

/-- A level that has no twelve bits comes back as another number. -/
theorem c72_loudness_wrap (x : Lou) (h : x.Fits) (room : Bool) (hr : x.Safe room) (type : Nat)
    (ht : type = fcc 't' 'l' 'o' 'u' ∨ type = fcc 'a' 'l' 'o' 'u') (v f : Nat) (hv : v < 256) (hf : f < 16777216)
    (hl : ¬ x.Levels) :
    ∃ y, y ≠ x ∧ BoxRoundTrip x.size (x.serialize type v f) (Lou.parse room) ((v, f), y) (fullBox type v f x.wire) := by
  have hg : Ent.GoodType type := by rcases ht with rfl | rfl <;> (unfold Ent.GoodType; decide)
  refine ⟨x.wrapped, fun e => hl ?_, Lou.trip h hr hv hf hg.2.1 hg.uuid⟩
  have e1 : wrap12 x.samplePeak = x.samplePeak := congrArg Lou.samplePeak e
  have e2 : wrap12 x.truePeak = x.truePeak := congrArg Lou.truePeak e
  unfold wrap12 at e1 e2
  exact ⟨⟨by omega, by omega⟩, ⟨by omega, by omega⟩⟩

/-- A measurement, and no room: a byte is stored after the block. -/
theorem c72_loudness_room (x : Lou) (h : x.Fits) (hm : x.measurements ≠ []) (type : Nat)
    (ht : type = fcc 't' 'l' 'o' 'u' ∨ type = fcc 'a' 'l' 'o' 'u') (v f : Nat) (hv : v < 256) (hf : f < 16777216)
    (rest : Bytes) : parseAtom (Lou.parse false) (fullBox type v f x.wire ++ rest) = .ub := by
  have hg : Ent.GoodType type := by rcases ht with rfl | rfl <;> (unfold Ent.GoodType; decide)
  have hc := h.count
  refine fullBox_breaks ?_ (by rw [Lou.wire_length]; omega) hg.2.1 hg.uuid rest
  unfold Lou.parse
  exact Str.BreaksAt.bind ((parses_versionFlags hv hf).at _) (Str.BreaksAt.first (Lou.breaks h hm))

/-- Bytes after the last measurement fail an assertion. -/
theorem c72_loudness_extra (x : Lou) (h : x.Fits) (room : Bool) (hr : x.Safe room) (type : Nat)
    (ht : type = fcc 't' 'l' 'o' 'u' ∨ type = fcc 'a' 'l' 'o' 'u') (v f : Nat) (hv : v < 256) (hf : f < 16777216)
    (y : Bytes) (hy : y ≠ []) (hl : 800 + y.length < 4294967296) (rest : Bytes) :
    parseAtom (Lou.parse room) (fullBox type v f (x.wire ++ y) ++ rest) = .ub := by
  have hg : Ent.GoodType type := by rcases ht with rfl | rfl <;> (unfold Ent.GoodType; decide)
  have hc := h.count
  exact fullBox_breaks (Lou.extra h hr hv hf hy) (by rw [List.length_append, Lou.wire_length]; omega) hg.2.1 hg.uuid rest

/-- A loudness box with anything in it is read as its track boxes and its album boxes. -/
theorem c72_box_read (room : Bool) (C : Class α) (is : List (Item α)) (h : ∀ i ∈ is, i.Good room C)
    (hl : 8 + (itemsWire is).length < 4294967296) :
    Reads (ludt room C) (fcc 'l' 'u' 'd' 't') ⟨tracks is, albums is⟩ (box (fcc 'l' 'u' 'd' 't') (itemsWire is)) :=
  ludt_reads h hl

/-- It is written with the track boxes first, and survives. -/
theorem c72_box (room : Bool) (C : Class α) (x : Ludt) (h : x.Good room) (hl : 8 + x.wire.length < 4294967296) :
    Survives (ludt room C) (fcc 'l' 'u' 'd' 't') x (box (fcc 'l' 'u' 'd' 't') x.wire) := by
  have hw := ludt_writes (C := C) h hl
  have hr := ludt_reads (Ludt.items_good h C) (by rw [Ludt.items_wire]; exact hl)
  rw [items_back, Ludt.items_wire] at hr
  exact ⟨hw.size, hw.write, hr⟩

/-- The content without the header, as the interface gives it. -/
theorem c72_box_data (room : Bool) (C : Class α) (x : Ludt) (h : x.Good room) (hl : 8 + x.wire.length < 4294967296) :
    ludtData room C x = .ok (x.wire.length, x.wire) := ludt_data h hl

/-- A box that reaches beyond the end of the loudness box fails an assertion. -/
theorem c72_box_over (room : Bool) (C : Class α) (is : List (Item α)) (h : ∀ i ∈ is, i.Good room C) (i : Item α)
    (hi : i.Good room C) (p q : Bytes) (hpq : p ++ q = i.wire) (hp : p ≠ []) (hq : q ≠ [])
    (hl : 8 + (itemsWire is).length + i.wire.length < 4294967296) (rest : Bytes) :
    parseAtom (ludt room C).parse (box (fcc 'l' 'u' 'd' 't') (itemsWire is ++ p) ++ (q ++ rest)) = .ub :=
  ludt_over h hi hpq hp hq hl rest

/-! ## Cases -/

section Cases

/-- Left, right, and a speaker at 30 degrees. -/
def three : List Speaker := [⟨0, 0, 0⟩, ⟨1, 0, 0⟩, ⟨126, 30, 5⟩]

theorem three_fits : ∀ x ∈ three, x.Fits := by
  intro x hx
  simp only [three, List.mem_cons, List.not_mem_nil, or_false] at hx
  rcases hx with rfl | rfl | rfl <;> constructor <;> decide

def scene : Scene0 := ⟨0, .listed three, none⟩
def known : Scene0 := ⟨0, .known 6 3, some 4⟩
def full : Scene0 := ⟨0, .listed three, some 4⟩

theorem scene_fits : scene.Fits := ⟨by decide, ⟨by decide, three_fits⟩, by simp [scene]⟩
theorem known_fits : known.Fits := ⟨by decide, ⟨by decide, by decide, by decide⟩, by simp [known]⟩
theorem full_fits : full.Fits := ⟨by decide, ⟨by decide, three_fits⟩, by simp [full]⟩

example := c72_layout_write full full_fits ⟨3, 3, 0, three, 99, 4, 5, 5, 5, 5, 5⟩
  ⟨rfl, ⟨rfl, rfl, rfl⟩, by simp [full]⟩ 0
example : full.wire = [3, 0, 0, 1, 126, 0, 30, 5, 4] := by decide
example := c72_layout_read scene scene_fits true (.inl rfl) 0 (by decide) (.inl rfl) [1]
example := c72_layout_read known known_fits false trivial 0 (by decide) (.inr (by simp [known])) []
example : known.wire = [3, 6, 0, 0, 0, 0, 0, 0, 0, 3, 4] := by decide
example := c72_layout_objects full full_fits three rfl 4 rfl true 0 (by decide) [0]
example := c72_layout_lost scene scene_fits three rfl rfl 0
example := c72_layout_short ⟨3, 1, 0, [], 0, 0, 0, 0, 0, 0, 0⟩ (by decide) rfl (by decide) 100 0
example := c72_layout_angles scene scene_fits three rfl ⟨⟨126, 30, 5⟩, by simp [three], rfl⟩ 0 (by decide) []

def later : Scene1 := ⟨0, 2, 3, .listed three⟩
def later' : Scene1 := ⟨1, 2, 3, .known 6 5 (some 3)⟩

theorem later_fits : later.Fits := ⟨by decide, by decide, by decide, ⟨by decide, three_fits⟩⟩
theorem later'_fits : later'.Fits :=
  ⟨by decide, by decide, by decide, ⟨by decide, by decide⟩, by decide, by simp⟩

example := c72_layout1 later later_fits true (.inl rfl) 1 0 (by decide) (by decide) (by decide)
example : later.wire = [0x12, 3, 0, 3, 0, 1, 126, 0, 30, 5] := by decide
example := c72_layout1 later' later'_fits false trivial 1 0 (by decide) (by decide) (by decide)
example : later'.wire = [0x32, 3, 6, 11, 0, 0, 0, 0, 0, 0, 0, 3] := by decide
example := c72_layout1_angles later later_fits three rfl ⟨⟨126, 30, 5⟩, by simp [three], rfl⟩ 1 0 (by decide) (by decide)
  (by decide) []
example := c72_layout1_extra later' later'_fits true trivial 1 0 (by decide) (by decide) (by decide) [0] (by decide)
  (by decide) []
example := c72_layout1_short ⟨0, 1, 0, [], 0, 0, 0, 0, 2, 0, 0⟩ (by decide) rfl (by decide) 1 (by decide) 100 0

/-- Three channels to one. -/
def mix : Dmix := ⟨3, 1, 0, 1, 0, 7, [0, 10, 15]⟩

theorem mix_fits : mix.Fits := by constructor <;> decide

example := c72_downmix_write mix 0 0 rfl rfl (by decide)
example : mix.head ++ pack mix.coefficients = [1, 1, 7, 0x0a, 0xff] := by decide
example := c72_downmix_stream { mix with inStream := 1 } 0 0 (by decide)
example := c72_downmix_read mix mix_fits 0 0 (by decide) (by decide) [1, 2, 3] (by decide) []
example := c72_downmix_round mix mix_fits 0 0 (by decide) (by decide) rfl rfl (by decide) (by decide) [9]
example := c72_downmix_lost { mix with baseChannelCount := 0 } 0 0 rfl
example := c72_downmix_short { mix with coefficients := [1, 2] } 0 0 rfl (by decide) (by decide)
/-- After 65538 coefficients the block has two. -/
example (l : List Nat) (h : l.length = 65538) : (lastBlock l).length = 2 := by simp [lastBlock, h]

def loud : Lou := ⟨0, 3, 1, -20, 100, 4, 3, 2, [⟨1, 90, 2, 3⟩, ⟨2, 80, 1, 1⟩]⟩

theorem loud_fits : loud.Fits := by
  constructor <;> first | decide | skip
  intro m hm
  simp only [loud, List.mem_cons, List.not_mem_nil, or_false] at hm
  rcases hm with rfl | rfl <;> constructor <;> decide

theorem loud_levels : loud.Levels := by unfold Lou.Levels InRange; decide

example := c72_loudness loud loud_fits loud_levels true (.inl rfl) _ (.inl rfl) 0 0 (by decide) (by decide)
example : loud.wire = [0, 0xc1, 0xfe, 0xc0, 0x64, 0x43, 2, 1, 90, 0x23, 2, 80, 0x11] := by decide
example := c72_loudness_wrap { loud with samplePeak := 2048 }
  { loud_fits with sample := by decide } true (.inl rfl) _ (.inr rfl) 0 0 (by decide) (by decide)
  (by unfold Lou.Levels InRange; decide)
example := c72_loudness_room loud loud_fits (by decide) _ (.inl rfl) 0 0 (by decide) (by decide) []
example := c72_loudness_extra loud loud_fits true (.inl rfl) _ (.inl rfl) 0 0 (by decide) (by decide) [0] (by decide)
  (by decide) []

theorem loud_sound : Sound true 0 0 loud := ⟨by decide, by decide, loud_fits, loud_levels, .inl rfl⟩

/-- Other boxes are kept as their bytes. -/
def raw : Class Bytes where
  parse h := getBytes (h.size - 8)
  size b := 8 + b.length
  ser b := putBytes b

def junk : Kid Bytes := ⟨fcc 'j' 'u' 'n' 'k', [1, 2], box (fcc 'j' 'u' 'n' 'k') [1, 2]⟩

theorem junk_reads : Reads raw junk.type junk.val junk.bytes :=
  Ent.reads_of (C := raw) (parses_getBytes (bs := [1, 2]) rfl |>.at _) (by decide) (by unfold Ent.GoodType; decide)

def mixed : List (Item Bytes) := [.album 0 0 loud, .other junk, .track 0 0 loud]

theorem mixed_good : ∀ i ∈ mixed, i.Good true raw := by
  intro i hi
  simp only [mixed, List.mem_cons, List.not_mem_nil, or_false] at hi
  rcases hi with rfl | rfl | rfl
  · exact loud_sound
  · exact ⟨junk_reads, by decide, by decide⟩
  · exact loud_sound

example := c72_box_read true raw mixed mixed_good (by decide +kernel)
example := c72_box true raw ⟨[((0, 0), loud)], [((0, 0), loud), ((0, 0), loud)]⟩
  ⟨by simpa using loud_sound, by simpa using loud_sound⟩ (by decide +kernel)
example := c72_box_data true raw ⟨[((0, 0), loud)], [((0, 0), loud)]⟩
  ⟨by simpa using loud_sound, by simpa using loud_sound⟩ (by decide +kernel)
example := c72_box_over true raw mixed mixed_good (.other junk) ⟨junk_reads, by decide, by decide⟩
  [0, 0, 0, 10, 0x6a] [0x75, 0x6e, 0x6b, 1, 2] (by decide) (by decide) (by decide) (by decide +kernel) []

end Cases

end Verif.Snd
