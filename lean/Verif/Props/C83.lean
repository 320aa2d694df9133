import Verif.Lemmas.MetaBox

/-!
# C83: meta boxes of files, movies and tracks

Full property: a file, a movie or a track can have meta boxes for any number of handler types, one for each; each is found by its type,
keeps the data and the primary item that are given to it, and is the same after writing and reading; so are the relations of meta boxes. It
holds for up to two meta boxes of different types, and not for relations.
-/

namespace Verif.MetaBox

open Verif.Ent
open Verif.Prot
open Verif.Str (Hdlr typeHdlr hdlrFields HdlrFits)
open Verif.Rows (Mere typeMere typePitm pitmSerialize pitmParse)
open Verif.Tree (isFree)

variable {α : Type}

/-! ## Specification -/

/-- ISO/IEC 14496-12, 8.11.1: the meta box. -/
def layout (version flags : Nat) (bytes : Bytes) : Bytes := fullBox (fcc 'm' 'e' 't' 'a') version flags bytes

/-- The types of which a meta box has at most one box. -/
def Single (t : Nat) : Prop :=
  t = fcc 'h' 'd' 'l' 'r' ∨ t = fcc 'd' 'i' 'n' 'f' ∨ t = fcc 'i' 'l' 'o' 'c' ∨ t = fcc 'p' 'i' 't' 'm' ∨ t = fcc 'i' 'i' 'n' 'f' ∨
  t = fcc 'i' 'r' 'e' 'f' ∨ t = fcc 'i' 'd' 'a' 't' ∨ t = fcc 'i' 'p' 'r' 'o' ∨ t = fcc 'i' 'p' 'r' 'p' ∨ t = fcc 'g' 'r' 'p' 'l'

/-- No two boxes of such a type. -/
def Once (ks : List (Kid (Nat × Part α))) : Prop :=
  ∀ t, Single t → (ks.filter fun k => k.type = t).length ≤ 1

theorem single_iff {t : Nat} : Single t ↔ t ∈ slots := by
  have : slots = [fcc 'h' 'd' 'l' 'r', fcc 'd' 'i' 'n' 'f', fcc 'i' 'l' 'o' 'c', fcc 'p' 'i' 't' 'm', fcc 'i' 'i' 'n' 'f',
    fcc 'i' 'r' 'e' 'f', fcc 'i' 'd' 'a' 't', fcc 'i' 'p' 'r' 'o', fcc 'i' 'p' 'r' 'p', fcc 'g' 'r' 'p' 'l'] := by decide
  rw [this]
  simp [Single]

theorem kount_eq (t : Nat) (ks : List (Kid (Nat × Part α))) : kount t ks = (ks.filter fun k => k.type = t).length :=
  List.countP_eq_length_filter

/-! ## Reading and writing the box -/

theorem size_kids {C : Class (Nat × Part α)} {ks : List (Kid (Nat × Part α))} (h : WritesAll C ks)
    (hl : 12 + (wire ks).length < 4294967296) : size C (vals ks) = 12 + (wire ks).length := listSize_writes h hl

theorem writes {C : Class (Nat × Part α)} {ks : List (Kid (Nat × Part α))} (h : WritesAll C ks) {version flags : Nat}
    (hl : 12 + (wire ks).length < 4294967296) :
    runW (size C (vals ks)) (serialize C version flags (vals ks)) = .ok (layout version flags (wire ks)) := by
  have ht : fcc 'm' 'e' 't' 'a' = typeMeta := by decide
  have hz := size_kids h hl
  have he : EmitsFull (serialize C version flags (vals ks)) (be 4 (size C (vals ks)) ++ be 4 typeMeta ++ (be 1 version ++ be 3 flags) ++
      wire ks) := by
    unfold serialize
    exact (emits_serFull _ _ _ _).then (Emits.thenAssert (emits_writes h))
  rw [he.runW (by rw [hz]; simp only [List.length_append, be_length]) (by omega)]
  unfold layout
  rw [Str.fullBox_eq, ht, hz]
  simp only [List.append_assoc]

/-- The body of the box. -/
theorem parse_kids {C : Class (Nat × Part α)} {ks : List (Kid (Nat × Part α))} (h : Readable C ks) {version flags : Nat} (hv : version < 256)
    (hf : flags < 2 ^ 24) {hd : Hdr} (hz : hd.size = 12 + (wire ks).length) (hl : 12 + (wire ks).length < 4294967296) (r : Bytes) :
    parse C hd ⟨(be 1 version ++ be 3 flags ++ wire ks) ++ r, 8⟩ =
      (adds add [] ks).bind fun l => .ok (((version, flags), l), ⟨r, 12 + (wire ks).length⟩) := by
  have e : (be 1 version ++ be 3 flags).length = 4 := by simp
  unfold parse
  rw [P.bind_apply, List.append_assoc, parses_versionFlags hv hf]
  simp only [e]
  rw [P.bind_apply]
  rw [loop_kids h (by have := readable_length h; simp only [List.length_append, be_length]; omega) (k := 12) hz (by omega)]
  cases adds add [] ks with
  | ok l =>
    show (if hd.size ≠ hd.size then P.fail .badData else pure ((version, flags), l) : P (Acc α)) ⟨r, hd.size⟩ = _
    rw [if_neg (by omega), hz]
    rfl
  | err e => rfl
  | ub => rfl

theorem parse_ok {C : Class (Nat × Part α)} {ks : List (Kid (Nat × Part α))} (h : Readable C ks) {l : List (Nat × Part α)}
    (ha : adds add [] ks = .ok l) {version flags : Nat} (hv : version < 256)
    (hf : flags < 2 ^ 24) {hd : Hdr} (hz : hd.size = 12 + (wire ks).length) (hl : 12 + (wire ks).length < 4294967296) :
    ParsesAt (parse C hd) 8 (be 1 version ++ be 3 flags ++ wire ks) ((version, flags), l) := by
  intro r
  rw [parse_kids h hv hf hz hl, ha]
  show Res.ok _ = _
  simp only [List.length_append, be_length]
  rw [show 8 + (1 + 3 + (wire ks).length) = 12 + (wire ks).length by omega]

/-- Boxes of any class that can be read by themselves are read in this one, without free space, if there are no two of a type of which there is
at most one. -/
theorem c83_read (known : Nat → Bool) (C : Class α) (ks : List (Kid (Nat × Part α))) (h : Readable (parts known C) ks) (ho : Once ks)
    (version flags : Nat) (hv : version < 256) (hf : flags < 2 ^ 24) (hl : (wire ks).length < 2 ^ 32 - 12) (rest : Bytes) :
    ∃ hd, parseAtom (parse (parts known C)) (layout version flags (wire ks) ++ rest) = .ok (((version, flags), vals (stay ks)), hd, rest) := by
  have ht : fcc 'm' 'e' 't' 'a' = typeMeta := by decide
  unfold layout
  rw [ht]
  refine Str.fullBox_reads (parse_ok h ?_ hv hf rfl (by omega)) (by omega) (by decide) (by decide) rest
  have := adds_once (typed h) [] fun t hs => by
    rw [kount_eq]
    have := ho t (single_iff.2 hs)
    simp only [count, List.countP_nil]
    omega
  simpa using this

/-- If there are two, the box is refused. -/
theorem c83_twice (known : Nat → Bool) (C : Class α) (ks : List (Kid (Nat × Part α))) (h : Readable (parts known C) ks)
    (t : Nat) (hs : Single t) (h2 : 2 ≤ (ks.filter fun k => k.type = t).length)
    (version flags : Nat) (hv : version < 256) (hf : flags < 2 ^ 24) (hl : (wire ks).length < 2 ^ 32 - 12) (rest : Bytes) :
    parseAtom (parse (parts known C)) (layout version flags (wire ks) ++ rest) = .err .badParam := by
  have ht : fcc 'm' 'e' 't' 'a' = typeMeta := by decide
  unfold layout
  rw [ht, Str.fullBox_eq]
  refine parseAtom_fails (body := parse (parts known C)) ?_ (by simp; omega) (by omega) (by decide) (by decide) rest
  intro r
  rw [parse_kids h hv hf rfl (by omega)]
  rw [adds_twice (typed h) [] (fun _ _ => by simp [count]) (single_iff.1 hs) (by rw [kount_eq]; simp only [count, List.countP_nil]; omega)]
  rfl

/-- Boxes that survive by themselves survive in this one. -/
theorem c83_round_trip (known : Nat → Bool) (C : Class α) (ks : List (Kid (Nat × Part α))) (h : Family (parts known C) ks) (ho : Once ks)
    (version flags : Nat) (hv : version < 256) (hf : flags < 2 ^ 24) (hl : (wire ks).length < 2 ^ 32 - 12) :
    BoxRoundTrip (size (parts known C) (vals ks)) (serialize (parts known C) version flags (vals ks)) (parse (parts known C))
      ((version, flags), vals ks) (layout version flags (wire ks)) := by
  have hw := family_writes h
  refine ⟨writes hw (by omega), ?_, fun rest => ?_⟩
  · unfold layout
    rw [size_kids hw (by omega), Str.fullBox_eq]
    simp only [List.length_append, be_length]
    omega
  · have := c83_read known C ks h.readable ho version flags hv hf hl rest
    rw [h.stay] at this
    exact this

/-- In QuickTime the box has no version and flags. It is read so if the type of its first box, taken for a size, is more than there is of the file. -/
theorem c83_quicktime (known : Nat → Bool) (C : Class α) (k : Kid (Nat × Part α)) (ks : List (Kid (Nat × Part α)))
    (h : Readable (parts known C) (k :: ks)) (ho : Once (k :: ks)) (payload : Bytes) (hk : k.bytes = box k.type payload)
    (rest : Bytes) (ht : (wire (k :: ks) ++ rest).length < k.type) (hu : k.type < 2 ^ 32) (hl : (wire (k :: ks)).length < 2 ^ 32 - 8) :
    ∃ hd, parseAtom (parse (parts known C)) (box (fcc 'm' 'e' 't' 'a') (wire (k :: ks)) ++ rest) =
      .ok (((0, 0), vals (stay (k :: ks))), hd, rest) := by
  have e0 : fcc 'm' 'e' 't' 'a' = typeMeta := by decide
  obtain ⟨w, ew⟩ : ∃ w, w = wire (k :: ks) := ⟨_, rfl⟩
  have hw : w ++ rest = be 4 (8 + payload.length) ++ (be 4 k.type ++ (payload ++ (wire ks ++ rest))) := by
    rw [ew, wire_cons, hk, box_eq]; simp only [List.append_assoc]
  have hwl : (w ++ rest).length = 8 + (payload ++ (wire ks ++ rest)).length := by
    rw [hw]; simp only [List.length_append, be_length]; omega
  have h16 : 8 ≤ w.length := by
    rw [ew, wire_cons, List.length_append]
    have := (readable_cons h).1.1
    omega
  rw [← ew] at ht hl ⊢
  rw [e0, box_eq, List.append_assoc]
  unfold parseAtom
  rw [parseHeader_small (by omega) (by omega) (by decide) (by decide) _ (by simp)]
  simp only
  have hbad : parseAtom (parts known C).parse (be 4 k.type ++ (payload ++ (wire ks ++ rest))) = .err .badData := by
    unfold parseAtom parseHeader
    rw [rd32_be, Res.ok_bind]
    have : k.type % 4294967296 = k.type := Nat.mod_eq_of_lt hu
    have h0 : ¬ k.type = 0 := by omega
    have hl4 : (be 4 k.type ++ (payload ++ (wire ks ++ rest))).length = 4 + (payload ++ (wire ks ++ rest)).length := by
      rw [List.length_append, be_length]
    simp only [this, h0, if_false]
    rw [if_pos ⟨by omega, by omega⟩]
  have hadds : adds add [] (k :: ks) = .ok (vals (stay (k :: ks))) := by
    have := adds_once (typed h) [] fun t hs => by
      rw [kount_eq]
      have := ho t (single_iff.2 hs)
      simp only [count, List.countP_nil]
      omega
    simpa using this
  have hloop : ∀ n, (k :: ks).length < n + 1 → loop (parts known C) (w ++ rest) (n + 1) (8 + w.length)
      (((8 + payload.length) >>> 24, (8 + payload.length) &&& 0xFFFFFF), []) ⟨be 4 k.type ++ (payload ++ (wire ks ++ rest)), 12⟩ =
      .ok (((0, 0), vals (stay (k :: ks))), ⟨rest, 8 + w.length⟩) := by
    intro n hn
    have h0 : (w ++ rest).drop ((w ++ rest).length - (be 4 k.type ++ (payload ++ (wire ks ++ rest))).length - 4) = w ++ rest := by
      rw [hwl, List.length_append (as := be 4 k.type), be_length]
      rw [show 8 + (payload ++ (wire ks ++ rest)).length - (4 + (payload ++ (wire ks ++ rest)).length) - 4 = 0 by omega]
      rfl
    rw [loop_back hbad (by omega) h0]
    have := loop_kids h (start := w ++ rest) (n := n + 1) (k := 8) (vf := (0, 0)) (l := []) (r := rest) (size := 8 + w.length) hn
      (by rw [ew]) (by omega)
    rw [hadds, ← ew] at this
    obtain ⟨hd, h1, h2, h3⟩ := (readable_cons h).1.2 (wire ks ++ rest)
    rw [← List.append_assoc, ← wire_cons, ← ew] at h3
    simp only [loop] at this
    rw [if_pos (by omega), h3] at this
    rw [h3]
    exact this
  have hbody : parse (parts known C) ⟨8 + w.length, typeMeta, [], 0, 8⟩ ⟨w ++ rest, 8⟩ =
      .ok (((0, 0), vals (stay (k :: ks))), ⟨rest, 8 + w.length⟩) := by
    unfold parse
    have hvf : getVersionFlags ⟨w ++ rest, 8⟩ = .ok (((8 + payload.length) >>> 24, (8 + payload.length) &&& 0xFFFFFF),
        ⟨be 4 k.type ++ (payload ++ (wire ks ++ rest)), 12⟩) := by
      unfold getVersionFlags
      rw [P.bind_apply, hw]
      have := (parses_get32' (v := 8 + payload.length) (by simp at hwl; omega)) (be 4 k.type ++ (payload ++ (wire ks ++ rest))) 8
      rw [this]
      rfl
    rw [P.bind_apply, hvf]
    simp only
    rw [P.bind_apply, hloop _ (by
      have := readable_length h
      rw [← ew] at this
      simp only [List.length_append] at *
      omega)]
    show (if 8 + w.length ≠ 8 + w.length then P.fail .badData else pure ((0, 0), vals (stay (k :: ks))) : P (Acc α)) ⟨rest, 8 + w.length⟩ = _
    rw [if_neg (by omega)]
    rfl
  rw [hbody]
  refine ⟨⟨8 + w.length, typeMeta, [], 0, 8⟩, ?_⟩
  simp only
  rw [if_neg (by omega)]
  simp only [List.length_append, be_length]
  rw [show 8 + w.length - (4 + 4 + (w.length + rest.length) - rest.length) = 0 by omega]
  rfl

theorem data_parses {known : Nat → Bool} {C : Class α} {t : Nat} (hk : known t = false) (hh : t ≠ typeHdlr) (hp : t ≠ typePitm) {d : Bytes}
    (hl : 8 + d.length < 4294967296) : ParsesAt ((parts known C).parse ⟨8 + d.length, t, [], 0, 8⟩) 8 d (t, .data d) := by
  show ParsesAt (if t = typeHdlr then P.as _ _ else if t = typePitm then P.as _ _ else if known t = true then P.as _ _ else _ :
    P (Nat × Part α)) _ _ _
  rw [if_neg hh, if_neg hp, hk, if_neg (by simp)]
  refine parsesAt_bytesRead ?_
  refine ParsesAt.bind_nil ((parses_getBytes ?_).at _) ((parses_pure _).at _)
  simp only
  omega

/-- The same is tried for any damage to the first box. If version and flags are 0 and the meta box is the last of the file, then what is left of it
is accepted as one box of a type that nobody wrote, the size of the damaged box. -/
theorem c83_damaged (known : Nat → Bool) (C : Class α) (t : Nat) (d : Bytes) (hd : parseAtom (parts known C).parse (be 4 t ++ d) = .err .badData)
    (hk : known t = false) (ht : GoodType t) (hs : ¬ Single t) (hf : ¬ Dropped t) (hl : d.length < 2 ^ 32 - 16) :
    ∃ h, parseAtom (parse (parts known C)) (layout 0 0 (be 4 t ++ d)) = .ok (((0, 0), [(t, .data d)]), h, []) := by
  have e0 : fcc 'm' 'e' 't' 'a' = typeMeta := by decide
  have hnh : t ≠ typeHdlr := fun e => hs (.inl (e.trans (by decide)))
  have hnp : t ≠ typePitm := fun e => hs (.inr (.inr (.inr (.inl (e.trans (by decide))))))
  have hfr : ¬ isFree t := fun h => hf (isFree_iff.1 h)
  have hz : (be 1 0 ++ be 3 0 ++ (be 4 t ++ d) : Bytes) = be 4 0 ++ (be 4 t ++ d) := by rfl
  unfold layout
  rw [e0, Str.fullBox_eq, hz]
  unfold parseAtom
  have hdl : (be 4 t ++ d).length = 4 + d.length := by simp
  have hsl : (be 4 0 ++ (be 4 t ++ d)).length = 8 + d.length := by simp; omega
  rw [parseHeader_small (by omega) (by omega) (by decide) (by decide) _ (by omega)]
  simp only [hdl]
  have hfirst : parseAtom (parts known C).parse (be 4 0 ++ (be 4 t ++ d)) =
      .ok ((t, .data d), ⟨8 + d.length, t, [], 0, 8⟩, []) := by
    have hh : parseHeader (be 4 0 ++ (be 4 t ++ d)) = .ok (⟨8 + d.length, t, [], 0, 8⟩, d) := by
      unfold parseHeader
      rw [rd32_be, Res.ok_bind]
      have e1 : (be 4 t ++ d).length + 4 = 8 + d.length := by omega
      have e2 : 8 + d.length < 4294967296 := by omega
      have e3 : ¬ (8 + d.length = 1) := by omega
      have e5 : t % 4294967296 = t := Nat.mod_eq_of_lt ht.2.1
      simp only [Nat.zero_mod, if_true, e1, e2]
      rw [if_neg (by omega), rd32_be, Res.ok_bind]
      simp only [e5, ht.uuid, if_false, e3, Res.ok_bind]
      rw [if_neg (by omega)]
    unfold parseAtom
    rw [hh]
    have hp : (parts known C).parse ⟨8 + d.length, t, [], 0, 8⟩ ⟨d, 8⟩ = .ok ((t, .data d), ⟨[], 8 + d.length⟩) := by
      have := data_parses (C := C) hk hnh hnp (d := d) (by omega) []
      rwa [List.append_nil] at this
    simp only [hp, List.drop_nil]
  have hvf : getVersionFlags ⟨be 4 0 ++ (be 4 t ++ d), 8⟩ = .ok ((0, 0), ⟨be 4 t ++ d, 12⟩) := by
    have := parses_versionFlags (v := 0) (f := 0) (by omega) (by omega) (be 4 t ++ d) 8
    exact this
  have hbody : parse (parts known C) ⟨12 + (4 + d.length), typeMeta, [], 0, 8⟩ ⟨be 4 0 ++ (be 4 t ++ d), 8⟩ =
      .ok (((0, 0), [(t, .data d)]), ⟨[], 16 + d.length⟩) := by
    unfold parse
    rw [P.bind_apply, hvf]
    simp only
    rw [P.bind_apply, hsl]
    rw [loop_back hd (by omega) (by rw [hsl, hdl, show 8 + d.length - (4 + d.length) - 4 = 0 by omega]; rfl), hfirst]
    simp only [hfr]
    rw [show add ([] : List (Nat × Part α)) t (t, .data d) = .ok [(t, .data d)] from if_neg (by simp)]
    simp only
    rw [show (8 + (8 + d.length)) % 4294967296 = 16 + d.length by omega, show 8 + d.length = (7 + d.length) + 1 by omega]
    simp only [loop]
    rw [if_neg (by simp), if_neg (by omega)]
    show (if 16 + d.length ≠ 12 + (4 + d.length) then P.fail .badData else pure ((0, 0), [(t, .data d)]) : P (Acc α)) ⟨[], 16 + d.length⟩ = _
    rw [if_neg (by omega)]
    rfl
  rw [hbody]
  simp only [List.drop_nil]
  exact ⟨_, rfl⟩

/-- Damage to a later box is not taken for that: whatever error it is, the meta box is refused with it. -/
theorem c83_damaged_later (known : Nat → Bool) (C : Class α) (ks : List (Kid (Nat × Part α))) (h : Readable (parts known C) ks) (ho : Once ks)
    (hn : ks ≠ []) (bad rest : Bytes) (e : Err) (hb : parseAtom (parts known C).parse (bad ++ rest) = .err e) (hb0 : bad ≠ [])
    (version flags : Nat) (hv : version < 256) (hf : flags < 2 ^ 24) (hl : (wire ks).length + bad.length < 2 ^ 32 - 12) :
    parseAtom (parse (parts known C)) (layout version flags (wire ks ++ bad) ++ rest) = .err e := by
  have ht : fcc 'm' 'e' 't' 'a' = typeMeta := by decide
  have hlen := readable_length h
  have hk := List.length_pos_iff.mpr hn
  have hbl := List.length_pos_iff.mpr hb0
  have ha : adds add [] ks = .ok ([] ++ vals (stay ks)) := adds_once (typed h) [] fun t hs => by
    rw [kount_eq]
    have := ho t (single_iff.2 hs)
    simp only [count, List.countP_nil]
    omega
  have hwl : (wire ks ++ bad).length = (wire ks).length + bad.length := List.length_append
  have hvl : (be 1 version ++ be 3 flags).length = 4 := by simp
  unfold layout
  rw [ht, Str.fullBox_eq, List.append_assoc (be 4 _ ++ be 4 _)]
  unfold parseAtom
  rw [parseHeader_small (by omega) (by omega) (by decide) (by decide) _ (by simp only [List.length_append, be_length]; omega)]
  simp only [hwl]
  have hbody : ∀ hd : Hdr, hd.size = 12 + ((wire ks).length + bad.length) →
      parse (parts known C) hd ⟨be 1 version ++ be 3 flags ++ (wire ks ++ bad) ++ rest, 8⟩ = .err e := by
    intro hd hz
    unfold parse
    rw [P.bind_apply, List.append_assoc, parses_versionFlags hv hf]
    simp only [hvl]
    rw [P.bind_apply, List.append_assoc (wire ks),
      loop_bad h hb ha (by simp only [List.length_append, be_length]; omega) (by omega) (by omega) (by omega)]
  rw [hbody _ rfl]

/-! ## Data and the primary item -/

/-- What a program may give to a meta box: data in a box of a type, with or without version and flags, or the ID of its primary item. -/
inductive Give where
  | data (type : Nat) (full : Bool) (bytes : Bytes)
  | item (id : Nat)

/-- The calls. One that fails changes nothing. -/
def give (l : List (Nat × Part α)) : Give → List (Nat × Part α) × Res Unit
  | .data t f b =>
    match addData l t b f with
    | .ok l' => (l', .ok ())
    | .err e => (l, .err e)
    | .ub => (l, .ub)
  | .item i =>
    match setItem l i with
    | .ok l' => (l', .ok ())
    | .err e => (l, .err e)
    | .ub => (l, .ub)

def gives (l : List (Nat × Part α)) : List Give → List (Nat × Part α) × List (Res Unit)
  | [] => (l, [])
  | g :: gs => ((gives (give l g).1 gs).1, (give l g).2 :: (gives (give l g).1 gs).2)

/-- The data is small enough, and not for a box that has a meaning in a meta box. -/
def Give.Ok : Give → Prop
  | .data t _ b => ¬ Single t ∧ b.length < 2 ^ 32 - 16
  | .item i => i < 2 ^ 16

/-- The first data of a type. -/
def firstData (t : Nat) : List Give → Option (Bool × Bytes)
  | [] => none
  | .data u f b :: gs => if u = t then some (f, b) else firstData t gs
  | .item _ :: gs => firstData t gs

/-- The last primary item. -/
def lastItem : List Give → Option Nat
  | [] => none
  | .data _ _ _ :: gs => lastItem gs
  | .item i :: gs => some ((lastItem gs).getD i)

/-- What a program gets: the bytes that were given, if it says the same about version and flags. If it does not, it gets four bytes more or fewer,
and a box with fewer than four is read past its end. A box without data is an error. -/
def gets (wanted : Bool) : Option (Bool × Bytes) → Res Bytes
  | none => .err .notFound
  | some (true, b) => if wanted then (if b = [] then .err .badData else .ok b) else .ok ([0, 0, 0, 0] ++ b)
  | some (false, b) =>
    if wanted then (if b.length < 4 then .ub else if b.length = 4 then .err .badData else .ok (b.drop 4))
    else if b = [] then .err .badData else .ok b

/-- What the meta box has after the calls. -/
structure Holds (l : List (Nat × Part α)) (type : Nat) (gs : List Give) : Prop where
  handler : handlerOf l = .ok (some type)
  data : ∀ t, ¬ Single t → l.find? (fun p => p.1 = t) = (firstData t gs).map fun d => (t, .data ((if d.1 then [0, 0, 0, 0] else []) ++ d.2))
  item : l.find? (fun p => p.1 = typePitm) = (lastItem gs).map fun i => (typePitm, .pitm (0, 0) i)

theorem notSingle {t : Nat} (h : ¬ Single t) : t ∉ slots ∧ t ≠ typeHdlr ∧ t ≠ typePitm ∧ t ≠ typeIloc :=
  ⟨fun hs => h (single_iff.2 hs), fun e => h (.inl (e.trans (by decide))), fun e => h (.inr (.inr (.inr (.inl (e.trans (by decide)))))),
    fun e => h (.inr (.inr (.inl (e.trans (by decide)))))⟩

theorem single_pitm : Single typePitm := .inr (.inr (.inr (.inl (by decide))))
theorem single_hdlr : Single typeHdlr := .inl (by decide)

theorem firstData_append (t : Nat) (a b : List Give) : firstData t (a ++ b) = (firstData t a).or (firstData t b) := by
  induction a with
  | nil => simp [firstData]
  | cons g a ih =>
    cases g with
    | data u f d =>
      simp only [List.cons_append, firstData]
      split
      · simp
      · exact ih
    | item i => exact ih

theorem lastItem_append (a b : List Give) : lastItem (a ++ b) = (lastItem b).or (lastItem a) := by
  induction a with
  | nil => simp [lastItem]
  | cons g a ih =>
    cases g with
    | data u f d => exact ih
    | item i =>
      simp only [List.cons_append, lastItem]
      rw [ih]
      cases lastItem b <;> simp

theorem find_append {p : Nat × Part α → Bool} (l : List (Nat × Part α)) (x : Nat × Part α) :
    (l ++ [x]).find? p = (l.find? p).or (if p x then some x else none) := by
  rw [List.find?_append]
  congr 1
  simp only [List.find?_cons, List.find?_nil]
  cases p x <;> rfl

theorem give_holds {l : List (Nat × Part α)} {type : Nat} {gs : List Give} (h : Holds l type gs) (g : Give) (hg : g.Ok) :
    Holds (give l g).1 type (gs ++ [g]) ∧ (give l g).2 = .ok () := by
  cases g with
  | data t f b =>
    obtain ⟨h1, h2⟩ := hg
    obtain ⟨n1, n2, n3, n4⟩ := notSingle h1
    have ha : addData l t b f = .ok (l ++ [(t, .data (if f then [0, 0, 0, 0] ++ b else b))]) := by
      unfold addData add
      rw [if_neg (by omega), if_neg (fun h => n4 h.1), if_neg (fun h => n1 h.1)]
    unfold give
    simp only [ha]
    refine ⟨⟨?_, ?_, ?_⟩, trivial⟩
    · have := h.handler
      unfold handlerOf at this ⊢
      rw [find_append]
      simp only [decide_eq_true_eq]
      rw [if_neg n2, Option.or_none]
      exact this
    · intro u hu
      rw [find_append, h.data u hu, firstData_append]
      simp only [decide_eq_true_eq, firstData]
      cases firstData u gs with
      | some d => simp
      | none =>
        simp only [Option.map_none, Option.none_or]
        by_cases e : t = u
        · subst e
          rw [if_pos rfl, if_pos rfl]
          cases f <;> simp
        · rw [if_neg e, if_neg e]; rfl
    · rw [find_append, h.item, lastItem_append]
      simp only [decide_eq_true_eq, lastItem]
      rw [if_neg n3]
      simp
  | item i =>
    have hi := h.item
    unfold give setItem
    cases hl : lastItem gs with
    | none =>
      rw [hl] at hi
      simp only [Option.map_none] at hi
      rw [hi]
      simp only
      refine ⟨⟨?_, ?_, ?_⟩, trivial⟩
      · have := h.handler
        unfold handlerOf at this ⊢
        rw [find_append]
        simp only [decide_eq_true_eq]
        rw [if_neg (by decide), Option.or_none]
        exact this
      · intro u hu
        rw [find_append, h.data u hu, firstData_append]
        simp only [decide_eq_true_eq, firstData]
        have : ¬ typePitm = u := fun e => hu (e ▸ single_pitm)
        rw [if_neg this]
        simp
      · rw [find_append, hi, lastItem_append, hl]
        simp [lastItem]
    | some j =>
      rw [hl] at hi
      simp only [Option.map_some] at hi
      rw [hi]
      simp only
      -- the box is replaced
      have hset : ∀ u, u ≠ typePitm → ∀ l : List (Nat × Part α), (l.find? fun p => p.1 = typePitm) = some (typePitm, .pitm (0, 0) j) →
          (l.set (l.findIdx fun p => p.1 = typePitm) (typePitm, .pitm (0, 0) i)).find? (fun p => p.1 = u) = l.find? fun p => p.1 = u := by
        intro u hu l
        induction l with
        | nil => intro _; rfl
        | cons p l ih =>
          intro hp
          by_cases e : p.1 = typePitm
          · rw [List.findIdx_cons]
            simp [e, hu.symm]
          · rw [List.findIdx_cons]
            have e' : decide (p.1 = typePitm) = false := by simpa using e
            rw [List.find?_cons, e'] at hp
            simp only [e', cond_false, List.set_cons_succ, List.find?_cons]
            rw [ih hp]
      have hset2 : ∀ l : List (Nat × Part α), (l.find? fun p => p.1 = typePitm) = some (typePitm, .pitm (0, 0) j) →
          (l.set (l.findIdx fun p => p.1 = typePitm) (typePitm, .pitm (0, 0) i)).find? (fun p => p.1 = typePitm) =
            some (typePitm, .pitm (0, 0) i) := by
        intro l
        induction l with
        | nil => intro hp; cases hp
        | cons p l ih =>
          intro hp
          by_cases e : p.1 = typePitm
          · rw [List.findIdx_cons]
            simp [e]
          · rw [List.findIdx_cons]
            have e' : decide (p.1 = typePitm) = false := by simpa using e
            rw [List.find?_cons, e'] at hp
            simp only [e', cond_false, List.set_cons_succ, List.find?_cons]
            exact ih hp
      refine ⟨⟨?_, ?_, ?_⟩, trivial⟩
      · have := h.handler
        unfold handlerOf at this ⊢
        rw [hset _ (by decide) l hi]
        exact this
      · intro u hu
        rw [hset u (fun e => hu (e ▸ single_pitm)) l hi, h.data u hu, firstData_append]
        simp [firstData]
      · rw [hset2 l hi, lastItem_append]
        simp [lastItem]

theorem gives_holds {l : List (Nat × Part α)} {type : Nat} {old : List Give} (h : Holds l type old) (gs : List Give) (hg : ∀ g ∈ gs, g.Ok) :
    Holds (gives l gs).1 type (old ++ gs) ∧ ∀ a ∈ (gives l gs).2, a = .ok () := by
  induction gs generalizing l old with
  | nil => simpa [gives] using h
  | cons g gs ih =>
    obtain ⟨h1, h2⟩ := give_holds h g (hg g (by simp))
    obtain ⟨h3, h4⟩ := ih h1 fun x hx => hg x (by simp [hx])
    refine ⟨by simpa [gives] using h3, ?_⟩
    intro a ha
    rcases List.mem_cons.1 ha with rfl | ha
    · exact h2
    · exact h4 a ha

theorem holds_new (type : Nat) : Holds (newMeta type : List (Nat × Part α)) type [] := by
  refine ⟨rfl, fun t ht => ?_, rfl⟩
  have := (notSingle ht).2.1
  simp [newMeta, firstData, this.symm]

theorem firstData_ok {t : Nat} {gs : List Give} (hg : ∀ g ∈ gs, g.Ok) {f : Bool} {b : Bytes} (h : firstData t gs = some (f, b)) :
    b.length < 2 ^ 32 - 16 := by
  induction gs with
  | nil => cases h
  | cons g gs ih =>
    have ih' := ih fun x hx => hg x (by simp [hx])
    cases g with
    | data u f' b' =>
      simp only [firstData] at h
      split at h
      · simp only [Option.some.injEq, Prod.mk.injEq] at h
        rw [← h.2]
        exact (hg _ (List.mem_cons_self ..)).2
      · exact ih' h
    | item i => exact ih' h

theorem lastItem_ok {gs : List Give} (hg : ∀ g ∈ gs, g.Ok) {i : Nat} (h : lastItem gs = some i) : i < 2 ^ 16 := by
  induction gs generalizing i with
  | nil => cases h
  | cons g gs ih =>
    have ih' := @ih fun x hx => hg x (by simp [hx])
    cases g with
    | data u f' b' => exact ih' h
    | item j =>
      simp only [lastItem, Option.some.injEq] at h
      cases hl : lastItem gs with
      | none => rw [hl] at h; simp only [Option.getD_none] at h; rw [← h]; exact hg _ (List.mem_cons_self ..)
      | some k => rw [hl] at h; simp only [Option.getD_some] at h; rw [← h]; exact ih' hl

theorem getData_gets {l : List (Nat × Part α)} {type : Nat} {gs : List Give} (h : Holds l type gs) (hg : ∀ g ∈ gs, g.Ok) (t : Nat)
    (ht : ¬ Single t) (full : Bool) : getData l t full = gets full (firstData t gs) := by
  unfold getData
  rw [h.data t ht]
  cases hf : firstData t gs with
  | none => rfl
  | some d =>
    obtain ⟨f, b⟩ := d
    have hb := firstData_ok hg hf
    simp only [Option.map_some, gets]
    have h0 : ∀ x : Bytes, x.length = 0 ↔ x = [] := fun x => List.length_eq_zero_iff
    cases f <;> cases full <;> simp only [if_true, if_false, Bool.false_eq_true, List.nil_append, List.length_append, List.length_cons, List.length_nil]
    · by_cases e : b = []
      · simp [e]
      · rw [if_neg (fun h => e ((h0 b).1 h)), if_neg (by omega), if_neg e, List.take_length]
    · by_cases e : b.length < 4
      · rw [if_neg (by omega), if_pos (by rw [List.length_drop]; omega), if_pos e]
      · by_cases e4 : b.length = 4
        · rw [if_pos (by omega), if_neg e, if_pos e4]
        · rw [if_neg (by omega), if_neg (by rw [List.length_drop]; omega), if_neg e, if_neg e4, List.take_of_length_le (by rw [List.length_drop]; omega)]
    · rw [if_neg (by omega), if_neg (by omega), List.take_of_length_le (by simp; omega)]
    · by_cases e : b = []
      · simp [e]
      · have : b.length ≠ 0 := fun h => e ((h0 b).1 h)
        rw [if_neg (by omega), if_neg (by simp; omega), if_neg e]
        show Res.ok (b.take _) = _
        rw [List.take_of_length_le (by omega)]

/-- Whatever a program gives to a new meta box, all calls succeed, it gets the data of a type as it was first given, the primary item as it
was last given, and the handler type. -/
theorem c83_data (type : Nat) (gs : List Give) (hg : ∀ g ∈ gs, g.Ok) :
    (∀ a ∈ (gives (newMeta type : List (Nat × Part α)) gs).2, a = .ok ()) ∧
    (∀ t full, ¬ Single t → getData (gives (newMeta type : List (Nat × Part α)) gs).1 t full = gets full (firstData t gs)) ∧
    getItem (gives (newMeta type : List (Nat × Part α)) gs).1 = (match lastItem gs with | some i => .ok i | none => .err .notFound) ∧
    handlerOf (gives (newMeta type : List (Nat × Part α)) gs).1 = .ok (some type) := by
  obtain ⟨h1, h2⟩ := gives_holds (holds_new (α := α) type) gs hg
  rw [List.nil_append] at h1
  refine ⟨h2, fun t full ht => getData_gets h1 hg t ht full, ?_, h1.handler⟩
  unfold getItem
  rw [h1.item]
  cases hl : lastItem gs with
  | none => rfl
  | some i =>
    show Res.ok (i % 65536) = _
    rw [Nat.mod_eq_of_lt (lastItem_ok hg hl)]

/-- Data of a type of which there is at most one box is refused if there is one, in particular for another handler box. -/
theorem c83_data_single (type t : Nat) (b : Bytes) (full : Bool) (gs : List Give) (hg : ∀ g ∈ gs, g.Ok) (hb : b.length < 2 ^ 32 - 16)
    (ht : t = fcc 'h' 'd' 'l' 'r' ∨ t = fcc 'p' 'i' 't' 'm' ∧ lastItem gs ≠ none) :
    addData (gives (newMeta type : List (Nat × Part α)) gs).1 t b full = .err .badParam := by
  obtain ⟨h1, -⟩ := gives_holds (holds_new (α := α) type) gs hg
  rw [List.nil_append] at h1
  have key : ∀ (l : List (Nat × Part α)) (u : Nat) (x : Nat × Part α), l.find? (fun p => p.1 = u) = some x → l.any (fun p => p.1 = u) = true := by
    intro l u x h
    rw [List.any_eq_true]
    exact ⟨x, List.mem_of_find?_eq_some h, List.find?_some (p := fun p : Nat × Part α => decide (p.1 = u)) h⟩
  unfold addData add
  rw [if_neg (by omega)]
  rcases ht with rfl | ⟨rfl, hi⟩
  · rw [if_neg (by intro h; exact absurd h.1 (by decide))]
    refine if_pos ⟨by decide, ?_⟩
    have := h1.handler
    unfold handlerOf at this
    cases hf : ((gives (newMeta type : List (Nat × Part α)) gs).1.find? fun p => p.1 = typeHdlr) with
    | none => rw [hf] at this; cases this
    | some x => exact key _ _ _ hf
  · rw [if_neg (by intro h; exact absurd h.1 (by decide))]
    refine if_pos ⟨by decide, ?_⟩
    have := h1.item
    cases hl : lastItem gs with
    | none => exact absurd hl hi
    | some i => rw [hl] at this; exact key _ _ _ this

/-- Data for an item location box, if there is none: a function is called that the box does not have. -/
theorem c83_data_iloc (l : List (Nat × Part α)) (b : Bytes) (full : Bool) (h : ∀ p ∈ l, p.1 ≠ fcc 'i' 'l' 'o' 'c') :
    addData l (fcc 'i' 'l' 'o' 'c') b full = .ub := by
  unfold addData
  split
  · rfl
  · refine if_pos ⟨by decide, ?_⟩
    simp only [List.any_eq_true, decide_eq_true_eq, not_exists, not_and]
    exact fun p hp e => h p hp (e.trans (by decide))

/-- Data is asked of a box of a known class: any class is taken for that of unknown boxes. -/
theorem c83_data_known (l : List (Nat × Part α)) (t : Nat) (x : α) (full : Bool) (h : ∀ p ∈ l, p.1 ≠ t) (m : List (Nat × Part α)) :
    getData (l ++ (t, .other x) :: m) t full = .ub := by
  unfold getData
  rw [List.find?_append, List.find?_eq_none.2 (by simpa using h)]
  simp

/-! ## From one program to another -/

/-- The box on the wire. -/
def kid (p : Nat × Part α) : Kid (Nat × Part α) :=
  ⟨p.1, p, match p.2 with
    | .hdlr vf x => fullBox (fcc 'h' 'd' 'l' 'r') vf.1 vf.2 (hdlrFields x ++ x.name)
    | .pitm vf i => fullBox (fcc 'p' 'i' 't' 'm') vf.1 vf.2 (be 2 i)
    | .data d => box p.1 d
    | .other _ => []⟩

/-- The data is in a box that no part of the library knows, and that is not free space. -/
def Give.Saved (known : Nat → Bool) : Give → Prop
  | .data t _ _ => known t = false ∧ GoodType t ∧ ¬ Dropped t
  | .item _ => True

/-- A bound for the number of bytes. -/
def Give.weight : Give → Nat
  | .data _ _ b => 12 + b.length
  | .item _ => 14

/-- A box that can be saved. -/
def Fine (known : Nat → Bool) (p : Nat × Part α) : Prop :=
  match p.2 with
  | .hdlr vf x => p.1 = typeHdlr ∧ vf = (0, 0) ∧ ∃ type, type < 2 ^ 32 ∧ x = Hdlr.setName ⟨0, type, 0, 0, 0, [], 0, false⟩ (typeString type) false
  | .pitm vf i => p.1 = typePitm ∧ vf = (0, 0) ∧ i < 2 ^ 16
  | .data d => known p.1 = false ∧ GoodType p.1 ∧ ¬ Dropped p.1 ∧ ¬ Single p.1 ∧ d.length < 2 ^ 32 - 12
  | .other _ => False

/-- The number of bytes of the boxes. -/
def weigh (l : List (Nat × Part α)) : Nat := (l.map fun p => (kid p).bytes.length).sum

structure Nice (known : Nat → Bool) (l : List (Nat × Part α)) (n : Nat) : Prop where
  fine : ∀ p ∈ l, Fine known p
  once : ∀ t ∈ slots, count t l ≤ 1
  weigh : weigh l ≤ n

theorem typeString_chars (type : Nat) : ∀ b ∈ typeString type, 32 ≤ b.toNat ∧ b.toNat < 127 := by
  intro b hb
  unfold typeString at hb
  obtain ⟨c, -, rfl⟩ := List.mem_map.1 hb
  split
  · assumption
  · decide

theorem fine_survives {known : Nat → Bool} {C : Class α} {p : Nat × Part α} (h : Fine known p) :
    Survives (parts known C) p.1 p (kid p).bytes ∧ ¬ Dropped p.1 := by
  obtain ⟨t, x⟩ := p
  cases x with
  | hdlr vf x =>
    obtain ⟨rfl, rfl, type, ht, rfl⟩ := h
    have hc := typeString_chars type
    have hlen : (typeString type).length = 4 := by simp [typeString]
    have trip := Str.c69_hdlr_partial 0 0 ⟨0, type, 0, 0, 0, [], 0, false⟩ (typeString type) (by omega) (by omega)
      ⟨by simp, ht, by simp, by simp, by simp⟩ (fun b hb e => by have := hc b hb; rw [e] at this; simp at this) (by omega)
      (by
        intro b hb
        have := hc b (List.mem_of_mem_head? hb)
        unfold Str.schar
        rw [if_pos (by omega), hlen]
        omega)
    have hw := Writes.ofTrip (C := parts known C) (x := (typeHdlr, .hdlr (0, 0) _)) trip
      (by show Hdlr.calcSize _ = _; unfold Hdlr.calcSize Hdlr.setName; simp only [hlen]) rfl
    have hr := reads_ofTrip (C := parts known C) (f := fun v => (typeHdlr, .hdlr v.1 v.2)) trip
      (by simp [hdlrFields, hlen]) (by unfold GoodType; decide)
      (by
        intro hd e
        have e' : hd.type = typeHdlr := e.trans (by decide)
        show (if hd.type = typeHdlr then P.as _ _ else _ : P (Nat × Part α)) = _
        rw [if_pos e', e'])
    exact ⟨⟨hw.size, hw.write, hr⟩, by show ¬ Dropped typeHdlr; decide⟩
  | pitm vf i =>
    obtain ⟨rfl, rfl, hi⟩ := h
    have trip := Rows.c68_pitm 0 0 i (by omega) (by omega) hi
    have hw := Writes.ofTrip (C := parts known C) (x := (typePitm, .pitm (0, 0) i)) trip rfl rfl
    have hr := reads_ofTrip (C := parts known C) (f := fun v => (typePitm, .pitm v.1 v.2)) trip
      (by simp) (by unfold GoodType; decide)
      (by
        intro hd e
        have e' : hd.type = typePitm := e.trans (by decide)
        show (if hd.type = typeHdlr then P.as _ _ else if hd.type = typePitm then P.as _ _ else _ : P (Nat × Part α)) = _
        rw [if_neg (by rw [e']; decide), if_pos e', e'])
    exact ⟨⟨hw.size, hw.write, hr⟩, by show ¬ Dropped typePitm; decide⟩
  | data d =>
    obtain ⟨h1, h2, h3, h4, h5⟩ := h
    obtain ⟨n1, n2, n3, n4⟩ := notSingle h4
    simp only at h1 h2 h3 h4 n1 n2 n3 n4
    have hz : (8 + d.length) % 4294967296 = 8 + d.length := by omega
    have hw : Writes (parts known C) (t, .data d) (box t d) := by
      refine Writes.of hz ?_ (by omega)
      show EmitsFull (if t = 0 then W.bad else serBase ((8 + d.length) % 4294967296) t ;; putBytes d ;; W.assertFull) _
      rw [if_neg (by have := h2.1; omega), hz]
      exact (emits_serBase _ _).then (emits_bytes _).thenAssert
    exact ⟨⟨hw.size, hw.write, reads_of (data_parses h1 n2 n3 (by omega)) (by omega) h2⟩, h3⟩
  | other x => exact h.elim

theorem weigh_append (l m : List (Nat × Part α)) : weigh (l ++ m) = weigh l + weigh m := by simp [weigh]

theorem weigh_wire (l : List (Nat × Part α)) : (wire (l.map kid)).length = weigh l := by
  induction l with
  | nil => rfl
  | cons p l ih =>
    rw [List.map_cons, wire_cons, List.length_append, ih]
    simp [weigh]

/-- Replacing the primary item. -/
theorem set_item {l : List (Nat × Part α)} {i j : Nat} (h : l.find? (fun p => p.1 = typePitm) = some (typePitm, .pitm (0, 0) j)) :
    (∀ p ∈ l.set (l.findIdx fun p => p.1 = typePitm) (typePitm, .pitm (0, 0) i), p ∈ l ∨ p = (typePitm, .pitm (0, 0) i)) ∧
    weigh (l.set (l.findIdx fun p => p.1 = typePitm) (typePitm, .pitm (0, 0) i)) = weigh l ∧
    ∀ t, count t (l.set (l.findIdx fun p => p.1 = typePitm) (typePitm, .pitm (0, 0) i)) = count t l := by
  refine ⟨fun p hp => List.mem_or_eq_of_mem_set hp, ?_⟩
  induction l with
  | nil => cases h
  | cons p l ih =>
    by_cases e : p.1 = typePitm
    · have e' : decide (p.1 = typePitm) = true := by simpa using e
      rw [List.find?_cons, e'] at h
      simp only [Option.some.injEq] at h
      subst h
      rw [List.findIdx_cons]
      simp only [decide_true, cond_true, List.set_cons_zero]
      refine ⟨?_, fun t => rfl⟩
      simp [weigh, kid, fullBox, box]
    · have e' : decide (p.1 = typePitm) = false := by simpa using e
      rw [List.find?_cons, e'] at h
      obtain ⟨h1, h2⟩ := ih h
      rw [List.findIdx_cons, e']
      simp only [cond_false, List.set_cons_succ]
      refine ⟨?_, fun t => ?_⟩
      · simp only [weigh, List.map_cons, List.sum_cons] at h1 ⊢
        rw [h1]
      · have := h2 t
        simp only [count, List.countP_cons] at this ⊢
        rw [this]

theorem give_nice {known : Nat → Bool} {l : List (Nat × Part α)} {n type : Nat} {gs : List Give} (hn : Nice known l n) (h : Holds l type gs)
    (g : Give) (hg : g.Ok) (hs : g.Saved known) : Nice known (give l g).1 (n + g.weight) := by
  cases g with
  | data t f b =>
    obtain ⟨h1, h2⟩ := hg
    obtain ⟨n1, n2, n3, n4⟩ := notSingle h1
    have ha : addData l t b f = .ok (l ++ [(t, .data (if f then [0, 0, 0, 0] ++ b else b))]) := by
      unfold addData add
      rw [if_neg (by omega), if_neg (fun h => n4 h.1), if_neg (fun h => n1 h.1)]
    have hlen : (if f then [0, 0, 0, 0] ++ b else b).length ≤ 4 + b.length := by cases f <;> simp <;> omega
    unfold give
    simp only [ha]
    refine ⟨?_, ?_, ?_⟩
    · intro p hp
      rcases List.mem_append.1 hp with hp | hp
      · exact hn.fine p hp
      · rw [List.mem_singleton.1 hp]
        exact ⟨hs.1, hs.2.1, hs.2.2, h1, by omega⟩
    · intro u hu
      rw [count_append]
      have : count u [((t, .data (if f then [0, 0, 0, 0] ++ b else b)) : Nat × Part α)] = 0 := by
        unfold count
        rw [List.countP_eq_zero]
        intro p hp
        rw [List.mem_singleton.1 hp]
        simp only [decide_eq_true_eq]
        exact fun e => n1 (e ▸ hu)
      rw [this]
      exact hn.once u hu
    · rw [weigh_append]
      have := hn.weigh
      have e : weigh [((t, .data (if f then [0, 0, 0, 0] ++ b else b)) : Nat × Part α)] = 8 + (if f then [0, 0, 0, 0] ++ b else b).length := by
        simp only [weigh, kid, List.map_cons, List.map_nil, List.sum_cons, List.sum_nil, box_length, Nat.add_zero]
      rw [e]
      show _ ≤ n + (12 + b.length)
      omega
  | item i =>
    have hi := h.item
    unfold give setItem
    cases hl : lastItem gs with
    | none =>
      rw [hl] at hi
      simp only [Option.map_none] at hi
      rw [hi]
      simp only
      refine ⟨?_, ?_, ?_⟩
      · intro p hp
        rcases List.mem_append.1 hp with hp | hp
        · exact hn.fine p hp
        · rw [List.mem_singleton.1 hp]
          exact ⟨rfl, rfl, hg⟩
      · intro u hu
        rw [count_append]
        have h0 : count typePitm l = 0 := by
          unfold count
          rw [List.countP_eq_zero]
          exact List.find?_eq_none.1 hi
        have e : count u [((typePitm, .pitm (0, 0) i) : Nat × Part α)] = if typePitm = u then 1 else 0 := by
          simp [count, List.countP_cons]
        rw [e]
        by_cases hu' : typePitm = u
        · rw [if_pos hu', ← hu', h0]; omega
        · rw [if_neg hu']; exact hn.once u hu
      · rw [weigh_append]
        have := hn.weigh
        have e : weigh [((typePitm, .pitm (0, 0) i) : Nat × Part α)] = 14 := by simp [weigh, kid, fullBox, box]
        rw [e]
        show _ ≤ n + 14
        omega
    | some j =>
      rw [hl] at hi
      simp only [Option.map_some] at hi
      rw [hi]
      simp only
      obtain ⟨s1, s2, s3⟩ := set_item (i := i) hi
      refine ⟨?_, ?_, ?_⟩
      · intro p hp
        rcases s1 p hp with hp | rfl
        · exact hn.fine p hp
        · exact ⟨rfl, rfl, hg⟩
      · intro u hu
        rw [s3]
        exact hn.once u hu
      · rw [s2]
        have := hn.weigh
        omega

theorem gives_nice {known : Nat → Bool} {l : List (Nat × Part α)} {n type : Nat} {old : List Give} (hn : Nice known l n) (h : Holds l type old)
    (gs : List Give) (hg : ∀ g ∈ gs, g.Ok) (hs : ∀ g ∈ gs, g.Saved known) : Nice known (gives l gs).1 (n + (gs.map Give.weight).sum) := by
  induction gs generalizing l n old with
  | nil => exact hn
  | cons g gs ih =>
    have := ih (give_nice hn h g (hg g (by simp)) (hs g (by simp))) (give_holds h g (hg g (by simp))).1 (fun x hx => hg x (by simp [hx]))
      fun x hx => hs x (by simp [hx])
    rw [List.map_cons, List.sum_cons, ← Nat.add_assoc]
    exact this

/-- What was given to a meta box is the same after writing and reading, if the data is in boxes that no part of the library knows. -/
theorem c83_saved (known : Nat → Bool) (C : Class α) (type : Nat) (ht : type < 2 ^ 32) (gs : List Give) (hg : ∀ g ∈ gs, g.Ok)
    (hs : ∀ g ∈ gs, g.Saved known) (hl : (gs.map Give.weight).sum < 2 ^ 32 - 49) :
    BoxRoundTrip (size (parts known C) (gives (newMeta type) gs).1) (serialize (parts known C) 0 0 (gives (newMeta type) gs).1)
      (parse (parts known C)) ((0, 0), (gives (newMeta type) gs).1) (layout 0 0 (wire ((gives (newMeta type : List (Nat × Part α)) gs).1.map kid))) := by
  have h0 : Nice known (newMeta type : List (Nat × Part α)) 37 := by
    refine ⟨?_, ?_, ?_⟩
    · intro p hp
      rw [List.mem_singleton.1 hp]
      exact ⟨rfl, rfl, type, ht, rfl⟩
    · intro t _
      show count t [_] ≤ 1
      unfold count
      exact List.countP_le_length
    · have hlen : (typeString type).length = 4 := by simp [typeString]
      simp [weigh, newMeta, kid, fullBox, box, hdlrFields, Hdlr.setName, hlen]
  have hn := gives_nice h0 (holds_new type) gs hg hs
  obtain ⟨l, el⟩ : ∃ l, l = (gives (newMeta type : List (Nat × Part α)) gs).1 := ⟨_, rfl⟩
  rw [← el] at hn ⊢
  have hv : vals (l.map kid) = l := by
    unfold vals
    rw [List.map_map]
    exact List.map_id'' (fun _ => rfl) l
  have := c83_round_trip known C (l.map kid) (by
      intro k hk
      obtain ⟨p, hp, rfl⟩ := List.mem_map.1 hk
      exact fine_survives (hn.fine p hp)) (by
      intro t hs
      rw [← kount_eq]
      unfold kount
      rw [List.countP_map]
      exact hn.once t (single_iff.1 hs)) 0 0 (by omega) (by omega) (by rw [weigh_wire]; have := hn.weigh; omega)
  rwa [hv] at this

/-! ## Meta boxes of a file, a movie or a track -/

def noMeta : Holder α := ⟨none, none⟩

/-- A history of new meta boxes of the given handler types. -/
def news (k : Kind) (s : Holder α) : List Nat → Holder α × List (Res Which)
  | [] => (s, [])
  | t :: ts => ((news k (new k s t).1 ts).1, (new k s t).2 :: (news k (new k s t).1 ts).2)

/-- The answers of the library: the first is accepted, then the first that is not for the type `meta`, and no other. -/
def answers : Nat → List Nat → List (Res Which)
  | _, [] => []
  | 0, _ :: ts => .ok .main :: answers 1 ts
  | 1, t :: ts => if t = fcc 'm' 'e' 't' 'a' then .err .badParam :: answers 1 ts else .ok (.extra 0) :: answers 2 ts
  | n, _ :: ts => .err .badParam :: answers n ts

def one (a : Nat) : Meta α := ⟨(0, 0), newMeta a, false⟩
def more (k : Kind) (b : Nat) : Meta α := ⟨(0, 0), newMeta b, k = .file⟩

theorem typeMeta_eq : typeMeta = fcc 'm' 'e' 't' 'a' := by decide

theorem new_first (k : Kind) (a : Nat) : new k (noMeta : Holder α) a = (⟨some (one a), none⟩, .ok .main) := rfl

theorem new_second (k : Kind) (a b : Nat) : new k (⟨some (one a), none⟩ : Holder α) b =
    if b = fcc 'm' 'e' 't' 'a' then (⟨some (one a), none⟩, .err .badParam)
    else (⟨some (one a), some ([more k b], [])⟩, .ok (.extra 0)) := by
  show (if typeMeta = b then _ else _) = _
  rw [typeMeta_eq]
  by_cases e : fcc 'm' 'e' 't' 'a' = b
  · rw [if_pos e, if_pos e.symm]
  · rw [if_neg e, if_neg (Ne.symm e)]; rfl

theorem new_third (k : Kind) (a b c : Nat) (rs : List ((Nat × Nat) × Mere)) : new k (⟨some (one a), some ([more k b], rs)⟩ : Holder α) c =
    (⟨some (one a), some ([more k b], rs)⟩, .err .badParam) := by
  show (if typeMeta = c then _ else _) = _
  split <;> rfl

/-- Any history: whatever the types, no more than two meta boxes. -/
theorem c83_history (k : Kind) (ts : List Nat) : (news k (noMeta : Holder α) ts).2 = answers 0 ts := by
  have h2 : ∀ (ts : List Nat) (a b : Nat), (news k (⟨some (one a), some ([more k b], [])⟩ : Holder α) ts).2 = answers 2 ts := by
    intro ts a b
    induction ts with
    | nil => rfl
    | cons t ts ih => simp only [news, new_third, answers, ih]
  have h1 : ∀ (ts : List Nat) (a : Nat), (news k (⟨some (one a), none⟩ : Holder α) ts).2 = answers 1 ts := by
    intro ts a
    induction ts with
    | nil => rfl
    | cons t ts ih =>
      simp only [news, new_second, answers]
      by_cases e : t = fcc 'm' 'e' 't' 'a'
      · simp only [e, if_true, ih]
      · simp only [e, if_false, h2]
  cases ts with
  | nil => rfl
  | cons t ts => simp only [news, new_first, answers, h1]

/-- Two meta boxes of different types are found by their types, the first also by no type. A type that neither has is dereferenced. -/
theorem c83_find_partial (k : Kind) (a b : Nat) (hab : a ≠ b) (hb : b ≠ 0) (hm : b ≠ fcc 'm' 'e' 't' 'a') :
    (news k (noMeta : Holder α) [a, b]).2 = [.ok .main, .ok (.extra 0)] ∧
    get (news k (noMeta : Holder α) [a, b]).1 a = .ok (.main, a) ∧
    get (news k (noMeta : Holder α) [a, b]).1 0 = .ok (.main, a) ∧
    get (news k (noMeta : Holder α) [a, b]).1 b = .ok (.extra 0, b) ∧
    ∀ c, c ≠ 0 → c ≠ a → c ≠ b → get (news k (noMeta : Holder α) [a, b]).1 c = .ub := by
  have hs : (news k (noMeta : Holder α) [a, b]).1 = ⟨some (one a), some ([more k b], [])⟩ := by
    simp only [news, new_first, new_second, if_neg hm]
  have hg : ∀ c, get (⟨some (one a), some ([more k b], [])⟩ : Holder α) c =
      if c ≠ 0 ∧ a ≠ c then (if b = c then .ok (.extra 0, c) else .ub) else .ok (.main, a) := by
    intro c
    show (if c ≠ 0 ∧ a ≠ c then ((if b = c then Res.ok (some 0) else Res.ok none) >>= fun r => match r with
      | none => Res.ub | some i => .ok (Which.extra i, c)) else .ok (.main, a)) = _
    split
    · split <;> rfl
    · rfl
  rw [hs]
  refine ⟨by rw [c83_history]; simp [answers, hm], ?_, ?_, ?_, ?_⟩
  · rw [hg, if_neg (by simp)]
  · rw [hg, if_neg (by simp)]
  · rw [hg, if_pos ⟨hb, hab⟩, if_pos rfl]
  · intro c h0 ha hb
    rw [hg, if_pos ⟨h0, Ne.symm ha⟩, if_neg (Ne.symm hb)]

theorem findMeta_first (type : Nat) {m : Meta α} {post : List (Meta α)} (hm : handlerOf m.list = .ok (some type)) :
    ∀ (pre : List (Meta α)) (i : Nat), (∀ x ∈ pre, ∃ t, handlerOf x.list = .ok (some t) ∧ t ≠ type) →
      findMeta type (pre ++ m :: post) i = .ok (some (i + pre.length))
  | [], i, _ => by
    rw [List.nil_append, findMeta, hm]
    simp
  | x :: pre, i, h => by
    obtain ⟨t, h1, h2⟩ := h x (by simp)
    rw [List.cons_append, findMeta, h1]
    simp only [h2, if_false]
    rw [findMeta_first type hm pre (i + 1) fun y hy => h y (by simp [hy]), List.length_cons, Nat.add_assoc, Nat.add_comm 1]

/-- In a container of any number of meta boxes, as a file may have one, the first with the type is found. -/
theorem c83_find_in_container (main m : Meta α) (pre post : List (Meta α)) (rs : List ((Nat × Nat) × Mere)) (t type : Nat)
    (h0 : handlerOf main.list = .ok (some t)) (ht : t ≠ type) (hz : type ≠ 0) (hm : handlerOf m.list = .ok (some type))
    (hp : ∀ x ∈ pre, ∃ t, handlerOf x.list = .ok (some t) ∧ t ≠ type) :
    get ⟨some main, some (pre ++ m :: post, rs)⟩ type = .ok (.extra pre.length, type) ∧
      (Holder.at ⟨some main, some (pre ++ m :: post, rs)⟩ (.extra pre.length)) = some m := by
  constructor
  · unfold get
    simp only [h0, Bind.bind, Res.bind]
    rw [if_pos ⟨hz, ht⟩]
    simp only [findMeta_first type hm pre 0 hp, Nat.zero_add]
  · simp [Holder.at]

/-- Three meta boxes for different types in the container. -/
example : get (⟨some (one (α := Unit) 1), some ([one 2, one 3, one 4], [])⟩) 4 = .ok (.extra 2, 4) :=
  (c83_find_in_container (one 1) (one 4) [one 2, one 3] [] [] 1 4 rfl (by decide) (by decide) rfl (by
    intro x hx
    simp only [List.mem_cons, List.not_mem_nil, or_false] at hx
    rcases hx with rfl | rfl
    · exact ⟨2, rfl, by decide⟩
    · exact ⟨3, rfl, by decide⟩)).1

/-- With one meta box, another type is refused; with none, any. -/
theorem c83_find_one (k : Kind) (a : Nat) :
    get (news k (noMeta : Holder α) [a]).1 a = .ok (.main, a) ∧ get (news k (noMeta : Holder α) [a]).1 0 = .ok (.main, a) ∧
    (∀ c, c ≠ 0 → c ≠ a → get (news k (noMeta : Holder α) [a]).1 c = .err .badParam) ∧ ∀ c, get (noMeta : Holder α) c = .err .badParam := by
  have hg : ∀ c, get (news k (noMeta : Holder α) [a]).1 c = if c ≠ 0 ∧ a ≠ c then .err .badParam else .ok (.main, a) := by
    intro c
    show (if c ≠ 0 ∧ a ≠ c then _ else _) = _
    rfl
  refine ⟨by rw [hg, if_neg (by simp)], by rw [hg, if_neg (by simp)], fun c h0 ha => ?_, fun c => rfl⟩
  rw [hg, if_pos ⟨h0, Ne.symm ha⟩]

/-- A second meta box for the same type is accepted, and is not found by any type. -/
theorem c83_same_type (k : Kind) (a : Nat) (hm : a ≠ fcc 'm' 'e' 't' 'a') :
    (news k (noMeta : Holder α) [a, a]).2 = [.ok .main, .ok (.extra 0)] ∧
    ∀ c i t, get (news k (noMeta : Holder α) [a, a]).1 c ≠ .ok (.extra i, t) := by
  have hs : (news k (noMeta : Holder α) [a, a]).1 = ⟨some (one a), some ([more k a], [])⟩ := by
    simp only [news, new_first, new_second, if_neg hm]
  refine ⟨by rw [c83_history]; simp [answers, hm], fun c i t => ?_⟩
  rw [hs]
  show (if c ≠ 0 ∧ a ≠ c then ((if a = c then Res.ok (some 0) else Res.ok none) >>= fun r => match r with
    | none => Res.ub | some i => .ok (Which.extra i, c)) else .ok (.main, a)) ≠ _
  by_cases h : c ≠ 0 ∧ a ≠ c
  · rw [if_pos h, if_neg h.2]
    intro h; cases h
  · rw [if_neg h]
    intro h
    cases h

/-- A third one is refused, of whatever type. -/
theorem c83_third (k : Kind) (a b c : Nat) (hm : b ≠ fcc 'm' 'e' 't' 'a') :
    (new k (news k (noMeta : Holder α) [a, b]).1 c).2 = .err .badParam := by
  have hs : (news k (noMeta : Holder α) [a, b]).1 = ⟨some (one a), some ([more k b], [])⟩ := by
    simp only [news, new_first, new_second, if_neg hm]
  rw [hs, new_third]

/-! ## Relations -/

/-- Relations between the two meta boxes of a file. -/
def relations (s : Holder α) : List (Which × Which × Nat) → Res (Holder α)
  | [] => .ok s
  | (a, b, r) :: rs => (addRelation s a b r).bind fun s' => relations s' rs

/-- The type of one of the meta boxes. -/
def typeOf (a b : Nat) : Which → Nat
  | .main => a
  | .extra _ => b

/-- The relations that involve the second meta box of a file are kept with the types of both; but no relation is ever found. -/
theorem c83_relations_lost (a b : Nat) (hm : b ≠ fcc 'm' 'e' 't' 'a') (rs : List (Which × Which × Nat))
    (hr : ∀ r ∈ rs, r.2.1 ≠ r.1 ∧ (r.1 = .main ∨ r.1 = .extra 0) ∧ (r.2.1 = .main ∨ r.2.1 = .extra 0) ∧ r.2.2 < 256) :
    ∃ s, relations (news .file (noMeta : Holder α) [a, b]).1 rs = .ok s ∧
      (s.meco.map (·.2)) = some (rs.map fun r => ((0, 0), ⟨typeOf a b r.1, typeOf a b r.2.1, r.2.2⟩)) ∧
      getRelation s .main (.extra 0) = .ok 0 ∧ getRelation s (.extra 0) .main = .ok 0 := by
  have hs : (news .file (noMeta : Holder α) [a, b]).1 = ⟨some (one a), some ([more .file b], [])⟩ := by
    simp only [news, new_first, new_second, if_neg hm]
  have key : ∀ (rs : List (Which × Which × Nat)) (old : List ((Nat × Nat) × Mere)),
      (∀ r ∈ rs, r.2.1 ≠ r.1 ∧ (r.1 = .main ∨ r.1 = .extra 0) ∧ (r.2.1 = .main ∨ r.2.1 = .extra 0) ∧ r.2.2 < 256) →
      relations (⟨some (one a), some ([more .file b], old)⟩ : Holder α) rs =
        .ok ⟨some (one a), some ([more .file b], old ++ rs.map fun r => ((0, 0), ⟨typeOf a b r.1, typeOf a b r.2.1, r.2.2⟩))⟩ := by
    intro rs
    induction rs with
    | nil => intro old _; simp [relations]
    | cons r rs ih =>
      intro old hr
      obtain ⟨x, y, n⟩ := r
      obtain ⟨h1, h2, h3, h4⟩ := hr (x, y, n) (by simp)
      simp only at h1 h2 h3 h4
      have ha : addRelation (⟨some (one a), some ([more .file b], old)⟩ : Holder α) x y n =
          .ok ⟨some (one a), some ([more .file b], old ++ [((0, 0), ⟨typeOf a b x, typeOf a b y, n⟩)])⟩ := by
        have e : n % 256 = n := Nat.mod_eq_of_lt h4
        rcases h2 with rfl | rfl <;> rcases h3 with rfl | rfl
        · exact absurd rfl h1
        · show Res.ok (⟨some (one a), some ([more .file b], old ++ [((0, 0), ⟨a, b, n % 256⟩)])⟩ : Holder α) = _
          rw [e]; rfl
        · show Res.ok (⟨some (one a), some ([more .file b], old ++ [((0, 0), ⟨b, a, n % 256⟩)])⟩ : Holder α) = _
          rw [e]; rfl
        · exact absurd rfl h1
      simp only [relations, ha]
      show relations (⟨some (one a), some ([more .file b], old ++ [_])⟩ : Holder α) rs = _
      rw [ih _ fun r hr' => hr r (by simp [hr'])]
      simp
  rw [hs, key rs [] hr]
  have hz : ∀ rs : List ((Nat × Nat) × Mere), (∀ r ∈ rs, ¬ (r.2.first = fcc 'm' 'e' 't' 'a' ∧ r.2.second = fcc 'm' 'e' 't' 'a')) →
      rs.foldl (fun r m => if m.2.first = typeMeta ∧ m.2.second = typeMeta then m.2.relation else r) 0 = 0 := by
    intro rs
    induction rs with
    | nil => intro _; rfl
    | cons m ms ih =>
      intro h
      rw [List.foldl_cons, if_neg (by rw [typeMeta_eq]; exact h m (by simp))]
      exact ih fun r hr => h r (by simp [hr])
  have hno : ∀ r ∈ rs.map fun r => (((0, 0), ⟨typeOf a b r.1, typeOf a b r.2.1, r.2.2⟩) : (Nat × Nat) × Mere),
      ¬ (r.2.first = fcc 'm' 'e' 't' 'a' ∧ r.2.second = fcc 'm' 'e' 't' 'a') := by
    intro r hr'
    obtain ⟨⟨x, y, n⟩, hx, rfl⟩ := List.mem_map.1 hr'
    obtain ⟨h1, h2, h3, -⟩ := hr _ hx
    simp only at h1 h2 h3 ⊢
    rcases h2 with rfl | rfl <;> rcases h3 with rfl | rfl <;> simp only [typeOf]
    · exact absurd rfl h1
    · exact fun h => hm h.2
    · exact fun h => hm h.1
    · exact absurd rfl h1
  refine ⟨_, rfl, by simp, ?_, ?_⟩
  · show Res.ok (List.foldl (fun (r : Nat) (m : (Nat × Nat) × Mere) => if m.2.first = typeMeta ∧ m.2.second = typeMeta then m.2.relation else r) 0 ([] ++ _)) = _
    rw [List.nil_append, hz _ hno]
  · show Res.ok (List.foldl (fun (r : Nat) (m : (Nat × Nat) × Mere) => if m.2.first = typeMeta ∧ m.2.second = typeMeta then m.2.relation else r) 0 ([] ++ _)) = _
    rw [List.nil_append, hz _ hno]

/-- Those of a movie or a track have none. -/
theorem c83_relation_refused (k : Kind) (hk : k ≠ .file) (a b r : Nat) (hm : b ≠ fcc 'm' 'e' 't' 'a') :
    addRelation (news k (noMeta : Holder α) [a, b]).1 .main (.extra 0) r = .err .badParam ∧
    getRelation (news k (noMeta : Holder α) [a, b]).1 .main (.extra 0) = .err .badParam := by
  have hs : (news k (noMeta : Holder α) [a, b]).1 = ⟨some (one a), some ([more k b], [])⟩ := by
    simp only [news, new_first, new_second, if_neg hm]
  rw [hs]
  cases k with
  | file => exact absurd rfl hk
  | movie => exact ⟨rfl, rfl⟩
  | track => exact ⟨rfl, rfl⟩

/-! ## The container -/

/-- The meta boxes and the relations of a container on the wire. -/
def metasOf (ks : List (Kid (Item α))) : List (Meta α) :=
  ks.filterMap fun k => match k.val with | .metaBox m => some m | _ => none

def relationsOf (ks : List (Kid (Item α))) : List ((Nat × Nat) × Mere) :=
  ks.filterMap fun k => match k.val with | .mere vf x => some (vf, x) | _ => none

theorem adds_items (s : List (Meta α) × List ((Nat × Nat) × Mere)) (ks : List (Kid (Item α))) :
    adds addItem s ks = .ok (s.1 ++ metasOf (stay ks), s.2 ++ relationsOf (stay ks)) := by
  induction ks generalizing s with
  | nil => simp [adds, stay, metasOf, relationsOf]
  | cons k ks ih =>
    simp only [adds]
    by_cases hf : isFree k.type
    · rw [if_pos hf]
      have : stay (k :: ks) = stay ks := by simp [stay, isFree_iff.1 hf]
      rw [this]
      exact ih s
    · rw [if_neg hf]
      have : stay (k :: ks) = k :: stay ks := by
        have : ¬ Dropped k.type := fun h => hf (isFree_iff.2 h)
        simp [stay, this]
      rw [this]
      cases hv : k.val with
      | metaBox m =>
        show adds addItem (s.1 ++ [m], s.2) ks = _
        rw [ih]
        simp [metasOf, relationsOf, hv]
      | mere vf x =>
        show adds addItem (s.1, s.2 ++ [(vf, x)]) ks = _
        rw [ih]
        simp [metasOf, relationsOf, hv]
      | other x =>
        show adds addItem s ks = _
        rw [ih]
        simp [metasOf, relationsOf, hv]

/-- A container is read as its meta boxes and its relations; all else in it is dropped. -/
theorem c83_container_read (C : Class (Nat × Part α)) (ks : List (Kid (Item α))) (h : Readable (items C) ks)
    (hl : (wire ks).length < 2 ^ 32 - 8) (rest : Bytes) :
    ∃ hd, parseAtom (meco C).parse (box (fcc 'm' 'e' 'c' 'o') (wire ks) ++ rest) =
      .ok ((metasOf (stay ks), relationsOf (stay ks)), hd, rest) := by
  have hr : Reads (meco C) (fcc 'm' 'e' 'c' 'o') (metasOf (stay ks), relationsOf (stay ks)) (box (fcc 'm' 'e' 'c' 'o') (wire ks)) := by
    refine reads_of (parsesAt_addAll h rfl (by show 8 + (wire ks).length < _; omega) ?_) (by omega) (by unfold GoodType; decide)
    have := adds_items ([], []) ks
    simpa using this
  obtain ⟨hd, -, -, h3⟩ := hr.2 rest
  exact ⟨hd, h3⟩

/-- A meta box with boxes whose bytes are known. -/
structure Sub (α : Type) where
  version : Nat
  flags : Nat
  kids : List (Kid (Nat × Part α))
  related : Bool

structure Sub.Fits (known : Nat → Bool) (C : Class α) (m : Sub α) : Prop where
  family : Family (parts known C) m.kids
  once : Once m.kids
  version : m.version < 256
  flags : m.flags < 2 ^ 24
  size : (wire m.kids).length < 2 ^ 32 - 12

def Sub.mem (m : Sub α) : Meta α := ⟨(m.version, m.flags), vals m.kids, m.related⟩
def Sub.bytes (m : Sub α) : Bytes := layout m.version m.flags (wire m.kids)

/-- ISO/IEC 14496-12, 8.11.8: the meta box relation box. -/
def mereWire (r : (Nat × Nat) × Mere) : Bytes :=
  fullBox (fcc 'm' 'e' 'r' 'e') r.1.1 r.1.2 (be 4 r.2.first ++ (be 4 r.2.second ++ be 1 r.2.relation))

structure MereFits (r : (Nat × Nat) × Mere) : Prop where
  version : r.1.1 < 256
  flags : r.1.2 < 2 ^ 24
  first : r.2.first < 2 ^ 32
  second : r.2.second < 2 ^ 32
  relation : r.2.relation < 2 ^ 8

def subKid (related : Bool) (m : Sub α) : Kid (Item α) := ⟨typeMeta, .metaBox ⟨(m.version, m.flags), vals m.kids, related⟩, m.bytes⟩
def mereKid (r : (Nat × Nat) × Mere) : Kid (Item α) := ⟨typeMere, .mere r.1 r.2, mereWire r⟩

theorem sub_writes {known : Nat → Bool} {C : Class α} {m : Sub α} (h : m.Fits known C) (related : Bool) :
    Writes (items (parts known C)) (subKid related m).val (subKid related m).bytes :=
  Writes.ofTrip (C := items (parts known C)) (x := (subKid related m).val)
    (c83_round_trip known C m.kids h.family h.once m.version m.flags h.version h.flags h.size) rfl rfl

theorem sub_reads {known : Nat → Bool} {C : Class α} {m : Sub α} (h : m.Fits known C) :
    Reads (items (parts known C)) typeMeta (subKid false m).val (subKid false m).bytes := by
  have hs := h.size
  rw [typeMeta_eq]
  exact reads_ofTrip (C := items (parts known C)) (f := fun v => .metaBox ⟨v.1, v.2, false⟩)
    (c83_round_trip known C m.kids h.family h.once m.version m.flags h.version h.flags h.size)
    (by simp only [List.length_append, be_length]; omega) (by unfold GoodType; decide)
    (by
      intro hd e
      show (if hd.type = typeMeta then P.as _ _ else _ : P (Item α)) = _
      rw [if_pos (e.trans typeMeta_eq.symm)])

theorem mere_writes {C : Class (Nat × Part α)} {r : (Nat × Nat) × Mere} (h : MereFits r) :
    Writes (items C) (mereKid r).val (mereKid r : Kid (Item α)).bytes :=
  Writes.ofTrip (C := items C) (x := (mereKid r).val) (Rows.c68_mere r.1.1 r.1.2 r.2 h.version h.flags h.first h.second h.relation) rfl rfl

theorem mere_reads {C : Class (Nat × Part α)} {r : (Nat × Nat) × Mere} (h : MereFits r) :
    Reads (items C) typeMere (mereKid r).val (mereKid r : Kid (Item α)).bytes := by
  have e0 : typeMere = fcc 'm' 'e' 'r' 'e' := by decide
  rw [e0]
  exact reads_ofTrip (C := items C) (f := fun v => .mere v.1 v.2)
    (Rows.c68_mere r.1.1 r.1.2 r.2 h.version h.flags h.first h.second h.relation)
    (by simp only [List.length_append, be_length]; omega) (by unfold GoodType; decide)
    (by
      intro hd e
      show (if hd.type = typeMeta then P.as _ _ else if hd.type = typeMere then P.as _ _ else _ : P (Item α)) = _
      rw [if_neg (by rw [e]; decide), if_pos (e.trans e0.symm)])

/-- The container on the wire: the meta boxes, then the relations. -/
def containerWire (ms : List (Sub α)) (rs : List ((Nat × Nat) × Mere)) : Bytes := ms.flatMap Sub.bytes ++ rs.flatMap mereWire

/-- A container is the same after writing and reading, but no meta box in it knows its container. -/
theorem c83_container (known : Nat → Bool) (C : Class α) (ms : List (Sub α)) (rs : List ((Nat × Nat) × Mere)) (hm : ∀ m ∈ ms, m.Fits known C)
    (hr : ∀ r ∈ rs, MereFits r) (hl : (containerWire ms rs).length < 2 ^ 32 - 8) :
    BoxRoundTrip ((meco (parts known C)).size (ms.map Sub.mem, rs)) ((meco (parts known C)).ser (ms.map Sub.mem, rs)) (meco (parts known C)).parse
      (ms.map fun m => { m.mem with related := false }, rs) (box (fcc 'm' 'e' 'c' 'o') (containerWire ms rs)) := by
  have hwm : ∀ l : List (Sub α), wire (l.map fun m => subKid m.related m) = l.flatMap Sub.bytes := by
    intro l; simp [wire, List.flatMap_map, subKid]
  have hwm' : ∀ l : List (Sub α), wire (l.map fun m => subKid false m) = l.flatMap Sub.bytes := by
    intro l; simp [wire, List.flatMap_map, subKid]
  have hwr : ∀ l : List ((Nat × Nat) × Mere), wire (l.map (mereKid : _ → Kid (Item α))) = l.flatMap mereWire := by
    intro l; simp [wire, List.flatMap_map, mereKid]
  have hvm : vals (ms.map fun m => subKid m.related m) = (ms.map Sub.mem).map .metaBox := by
    simp [vals, subKid, Sub.mem, Function.comp_def]
  have hvr : vals (rs.map (mereKid : _ → Kid (Item α))) = rs.map fun r => .mere r.1 r.2 := by simp [vals, mereKid, Function.comp_def]
  have w1 : WritesAll (items (parts known C)) (ms.map fun m => subKid m.related m) := by
    intro k hk
    obtain ⟨m, hm', rfl⟩ := List.mem_map.1 hk
    exact sub_writes (hm m hm') _
  have w2 : WritesAll (items (parts known C)) (rs.map mereKid) := by
    intro k hk
    obtain ⟨r, hr', rfl⟩ := List.mem_map.1 hk
    exact mere_writes (hr r hr')
  have hz : (meco (parts known C)).size (ms.map Sub.mem, rs) = 8 + (containerWire ms rs).length := by
    show listSize _ (listSize _ 8 _) _ = _
    unfold containerWire at hl ⊢
    rw [List.length_append] at hl ⊢
    rw [← hvm, ← hvr, listSize_writes w1 (by rw [hwm]; omega), listSize_writes w2 (by rw [hwm, hwr]; omega), hwm, hwr]
    omega
  have hw : Writes (meco (parts known C)) (ms.map Sub.mem, rs) (box (fcc 'm' 'e' 'c' 'o') (containerWire ms rs)) := by
    refine Writes.of hz ?_ (by omega)
    show EmitsFull (serBase ((meco (parts known C)).size (ms.map Sub.mem, rs)) typeMeco ;; serList (items (parts known C)) ((ms.map Sub.mem).map .metaBox) ;;
      serList (items (parts known C)) (rs.map fun r => .mere r.1 r.2) ;; W.assertFull) _
    rw [hz, ← hvm, ← hvr]
    unfold containerWire
    rw [← hwm, ← hwr]
    exact (emits_serBase _ _).then ((emits_writes w1).then (emits_writes w2).thenAssert)
  refine ⟨hw.write, hw.size.symm, fun rest => ?_⟩
  have hread : Readable (items (parts known C)) (ms.map (fun m => subKid false m) ++ rs.map mereKid) := by
    intro k hk
    rcases List.mem_append.1 hk with hk | hk
    · obtain ⟨m, hm', rfl⟩ := List.mem_map.1 hk
      exact sub_reads (hm m hm')
    · obtain ⟨r, hr', rfl⟩ := List.mem_map.1 hk
      exact mere_reads (hr r hr')
  have hwire : wire (ms.map (fun m => subKid false m) ++ rs.map mereKid) = containerWire ms rs := by
    have : ∀ a b : List (Kid (Item α)), wire (a ++ b) = wire a ++ wire b := by intro a b; simp [wire]
    rw [this, hwm', hwr]
    rfl
  have hstay : stay (ms.map (fun m => subKid false m) ++ rs.map mereKid : List (Kid (Item α))) = ms.map (fun m => subKid false m) ++ rs.map mereKid := by
    apply List.filter_eq_self.2
    intro k hk
    rcases List.mem_append.1 hk with hk | hk
    · obtain ⟨m, hm', rfl⟩ := List.mem_map.1 hk
      show decide (¬ Dropped typeMeta) = true
      decide
    · obtain ⟨r, hr', rfl⟩ := List.mem_map.1 hk
      show decide (¬ Dropped typeMere) = true
      decide
  have := c83_container_read (parts known C) _ hread (by rw [hwire]; omega) rest
  rw [hstay, hwire] at this
  have e1 : metasOf (ms.map (fun m => subKid false m) ++ rs.map mereKid) = ms.map fun m => { m.mem with related := false } := by
    unfold metasOf
    rw [List.filterMap_append, List.filterMap_map, List.filterMap_map]
    have a1 : List.filterMap ((fun k : Kid (Item α) => match k.val with | .metaBox m => some m | _ => none) ∘ fun m => subKid false m) ms =
        ms.map fun m => { m.mem with related := false } := by
      rw [← List.filterMap_eq_map]
      rfl
    have a2 : List.filterMap ((fun k : Kid (Item α) => match k.val with | .metaBox m => some m | _ => none) ∘ mereKid) rs = [] :=
      List.filterMap_eq_nil_iff.2 fun r _ => rfl
    rw [a1, a2, List.append_nil]
  have e2 : relationsOf (ms.map (fun m => subKid false m) ++ rs.map mereKid) = rs := by
    unfold relationsOf
    rw [List.filterMap_append, List.filterMap_map, List.filterMap_map]
    have a1 : List.filterMap ((fun k : Kid (Item α) => match k.val with | .mere vf x => some (vf, x) | _ => none) ∘ fun m => subKid false m) ms = [] :=
      List.filterMap_eq_nil_iff.2 fun r _ => rfl
    have a2 : List.filterMap ((fun k : Kid (Item α) => match k.val with | .mere vf x => some (vf, x) | _ => none) ∘ mereKid) rs = rs := by
      rw [show ((fun k : Kid (Item α) => match k.val with | .mere vf x => some (vf, x) | _ => none) ∘ mereKid) = some from rfl]
      simp
    rw [a1, a2, List.nil_append]
  rw [e1, e2] at this
  exact this

/-- What a program has after reading a file with these meta boxes. -/
def reread (s : Holder α) : Holder α :=
  ⟨s.main.map fun m => { m with related := false }, s.meco.map fun c => (c.1.map fun m => { m with related := false }, c.2)⟩

theorem findMeta_reread (t : Nat) (ms : List (Meta α)) (i : Nat) :
    findMeta t (ms.map fun m => { m with related := false }) i = findMeta t ms i := by
  induction ms generalizing i with
  | nil => rfl
  | cons m ms ih => simp only [List.map_cons, findMeta, ih]

theorem at_reread (s : Holder α) (w : Which) : (reread s).at w = (s.at w).map fun m => { m with related := false } := by
  cases w with
  | main => rfl
  | extra i =>
    obtain ⟨m, c⟩ := s
    cases c with
    | none => rfl
    | some c => simp [reread, Holder.at]

/-- It finds the same meta boxes, but no relation of any can be asked for or added. -/
theorem c83_reread (s : Holder α) : (∀ t, get (reread s) t = get s t) ∧
    ∀ a b r, s.at a ≠ none → s.at b ≠ none → getRelation (reread s) a b = .err .badParam ∧ addRelation (reread s) a b r = .err .badParam := by
  constructor
  · intro t
    obtain ⟨m, c⟩ := s
    cases m with
    | none => rfl
    | some m =>
      cases c with
      | none => rfl
      | some c =>
        simp only [get, reread, Option.map_some, findMeta_reread]
  · intro a b r ha hb
    cases h1 : s.at a with
    | none => exact absurd h1 ha
    | some x =>
      cases h2 : s.at b with
      | none => exact absurd h2 hb
      | some y =>
        have e1 := at_reread s a
        have e2 := at_reread s b
        rw [h1] at e1
        rw [h2] at e2
        unfold getRelation addRelation
        rw [e1, e2]
        cases hc : s.meco with
        | none => simp [reread, hc]
        | some c => simp [reread, hc]

/-! ## Cases that meet the hypotheses -/

/-- Data in the unknown boxes `xml ` and `bxml`, given twice, and primary items. -/
def sample : List Give :=
  [.data (fcc 'x' 'm' 'l' ' ') true [60, 47, 62], .item 7, .data (fcc 'b' 'x' 'm' 'l') false [1, 2, 3, 4, 5], .item 9,
    .data (fcc 'x' 'm' 'l' ' ') false [1]]

example : (∀ g ∈ sample, g.Ok) ∧ (∀ g ∈ sample, g.Saved fun _ => false) ∧ (sample.map Give.weight).sum < 2 ^ 32 - 49 := by
  refine ⟨?_, ?_, by decide⟩
  · intro g hg
    simp only [sample, List.mem_cons, List.not_mem_nil, or_false] at hg
    rcases hg with rfl | rfl | rfl | rfl | rfl <;> simp only [Give.Ok, Single] <;> decide
  · intro g hg
    simp only [sample, List.mem_cons, List.not_mem_nil, or_false] at hg
    rcases hg with rfl | rfl | rfl | rfl | rfl <;> simp only [Give.Saved, GoodType] <;> decide

example : getData (gives (newMeta (fcc 'm' 'p' '7' 't') : List (Nat × Part Unit)) sample).1 (fcc 'x' 'm' 'l' ' ') true = .ok [60, 47, 62] ∧
    getItem (gives (newMeta (fcc 'm' 'p' '7' 't') : List (Nat × Part Unit)) sample).1 = .ok 9 := by decide

/-- A box that is too short is read past its end. -/
example : getData (gives (newMeta (fcc 'm' 'p' '7' 't') : List (Nat × Part Unit)) [.data (fcc 'x' 'm' 'l' ' ') false [1]]).1 (fcc 'x' 'm' 'l' ' ') true =
    .ub := by decide

/-- A damaged handler box, of the size 5, in a meta box at the end of a file. -/
example : parseAtom (parts (fun _ => false) ⟨fun _ => P.bad, fun _ : Unit => 0, fun _ => W.bad⟩).parse (be 4 5 ++ (be 4 (fcc 'h' 'd' 'l' 'r') ++ [1, 2, 3])) =
    .err .badData ∧ GoodType 5 ∧ ¬ Single 5 ∧ ¬ Dropped 5 := by
  refine ⟨rfl, by unfold GoodType; decide, by unfold Single; decide, by decide⟩

/-- The handler box of a new meta box, and then a box of the size 5. -/
example : parseAtom (parse (parts (fun _ => false) ⟨fun _ => P.bad, fun _ : Unit => 0, fun _ => W.bad⟩))
    (layout 0 0 (wire ((newMeta (fcc 'm' 'd' 't' 'a') : List (Nat × Part Unit)).map kid) ++ (be 4 5 ++ be 4 7)) ++ []) = .err .badData := by
  have hw : (wire ((newMeta (fcc 'm' 'd' 't' 'a') : List (Nat × Part Unit)).map kid)).length = 37 := by decide +kernel
  refine c83_damaged_later (fun _ => false) _ _ ?_ ?_ (by simp [newMeta]) (be 4 5 ++ be 4 7) [] .badData rfl (by decide) 0 0 (by decide) (by decide) ?_
  · intro k hk
    simp only [newMeta, List.map_cons, List.map_nil] at hk
    rw [List.mem_singleton.1 hk]
    exact (fine_survives (p := (typeHdlr, .hdlr (0, 0) _)) ⟨rfl, rfl, fcc 'm' 'd' 't' 'a', by decide, rfl⟩).1.read
  · intro t _
    exact Nat.le_trans (List.length_filter_le _ _) (by simp [newMeta])
  · rw [hw]; decide

/-- A QuickTime meta box with the handler box of a new meta box, in a file that goes on. -/
example (rest : Bytes) (h : rest.length < 2 ^ 30) :
    ∃ hd, parseAtom (parse (parts (fun _ => false) ⟨fun _ => P.bad, fun _ : Unit => 0, fun _ => W.bad⟩))
      (box (fcc 'm' 'e' 't' 'a') (wire ((newMeta (fcc 'm' 'd' 't' 'a') : List (Nat × Part Unit)).map kid)) ++ rest) =
      .ok (((0, 0), newMeta (fcc 'm' 'd' 't' 'a')), hd, rest) := by
  have hw : (wire ((newMeta (fcc 'm' 'd' 't' 'a') : List (Nat × Part Unit)).map kid)).length = 37 := by decide +kernel
  refine c83_quicktime (fun _ => false) ⟨fun _ => P.bad, fun _ : Unit => 0, fun _ => W.bad⟩
    (kid (typeHdlr, .hdlr (0, 0) (Hdlr.setName ⟨0, fcc 'm' 'd' 't' 'a', 0, 0, 0, [], 0, false⟩ (typeString (fcc 'm' 'd' 't' 'a')) false))) [] ?_ ?_
    _ rfl rest ?_ (by decide) (by have := hw; simp only [newMeta, List.map_cons, List.map_nil] at this; omega)
  · intro k hk
    rw [List.mem_singleton.1 hk]
    exact (fine_survives (p := (typeHdlr, .hdlr (0, 0) _)) ⟨rfl, rfl, fcc 'm' 'd' 't' 'a', by decide, rfl⟩).1.read
  · intro t _
    exact Nat.le_trans (List.length_filter_le _ _) (by simp)
  · have := hw
    simp only [newMeta, List.map_cons, List.map_nil] at this
    rw [List.length_append, this]
    show 37 + rest.length < typeHdlr
    have : typeHdlr = 1751411826 := by decide
    omega

example : (news .file (noMeta : Holder Unit) [fcc 'm' 'p' '7' 't', fcc 'I' 'D' '3' '2', fcc 'p' 'i' 'c' 't']).2 =
    [.ok .main, .ok (.extra 0), .err .badParam] := by decide

end Verif.MetaBox
