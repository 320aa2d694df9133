import Verif.Lemmas.Strings

/-!
# C69 — boxes that end with a string survive being written and parsed

Full property: a box that ends with a string (copyright, language, key management system, scheme, handler, data
reference) is written with the string and its NUL, and is parsed again to the same fields; and no sequence of
bytes in a file makes the parser, or a writer of what was parsed, leave its buffers.

The code has the first part for strings with no NUL byte in them, except for handler names (see
`c69_hdlr_mangled`, `c69_hdlr_long`) and URN references (`c69_urn_swapped`); the second part fails for all of
them: `c69_cprt_open`, `c69_elng_open`, `c69_ikms_open`, `c69_schm_open`, `c69_hdlr_open`, `c69_url_open`,
`c69_alis`.
-/

namespace Verif.Str

/-! ## Copyright, language, key management system -/

theorem c69_cprt (version flags lang : Nat) (s : Bytes) (hv : version < 256) (hf : flags < 2 ^ 24)
    (hl : lang < 2 ^ 16) (hs : Text s) (hn : 15 + s.length < 2 ^ 32) :
    BoxRoundTrip (15 + s.length) (Cprt.serialize version flags ⟨lang, some (s ++ [0])⟩) Cprt.parse
      ((version, flags), ⟨lang, some (s ++ [0])⟩)
      (fullBox (fcc 'c' 'p' 'r' 't') version flags (be 2 lang ++ (s ++ [0]))) := by
  have ht : typeCprt = fcc 'c' 'p' 'r' 't' := by decide
  rw [← ht]
  have hz : Cprt.calcSize s = 15 + s.length := by unfold Cprt.calcSize; omega
  unfold Cprt.serialize cstrPtr
  simp only [cstr_text hs, hz]
  refine BoxRoundTrip.ofFull (type := typeCprt) ?_ ?_ (by simp; omega) hn (by decide) (by decide)
  · exact (emits_put16 _).then (emits_putStr (by omega)).thenAssert
  · unfold Cprt.parse
    refine ((parses_versionFlags hv hf).at _).bind ?_
    refine ((parses_get16' hl).at _).bind ?_
    refine parsesAt_bytesLeft (n := s.length + 1) (by simp; omega) hn ?_
    rw [if_pos (by omega)]
    exact ((parses_getBytes (by simp)).at _).bind_nil ((parses_pure _).at _)

/-- A notice without its NUL is taken from the file; to write it again is undefined. The same for no notice. -/
theorem c69_cprt_open (version flags lang size : Nat) (s : Bytes) (hv : version < 256) (hf : flags < 2 ^ 24)
    (hl : lang < 2 ^ 16) (hs : Text s) (hn : 14 + s.length < 2 ^ 32) (rest : Bytes) :
    ∃ x hd, parseAtom Cprt.parse (fullBox (fcc 'c' 'p' 'r' 't') version flags (be 2 lang ++ s) ++ rest) =
        .ok (((version, flags), x), hd, rest) ∧
      runW size (x.serialize version flags) = .ub := by
  have ht : typeCprt = fcc 'c' 'p' 'r' 't' := by decide
  rw [← ht]
  have h : ParsesAt (Cprt.parse ⟨12 + (be 2 lang ++ s).length, typeCprt, [], 0, 8⟩) 8
      (be 1 version ++ be 3 flags ++ (be 2 lang ++ s))
      ((version, flags), ⟨lang, if s.length > 0 then some s else none⟩) := by
    unfold Cprt.parse
    refine ((parses_versionFlags hv hf).at _).bind ?_
    refine ((parses_get16' hl).at _).bind ?_
    refine parsesAt_bytesLeft (n := s.length) (by simp; omega) (by simp; omega) ?_
    by_cases h0 : s.length > 0
    · rw [if_pos h0, if_pos h0]
      exact ((parses_getBytes rfl).at _).bind_nil ((parses_pure _).at _)
    · rw [if_neg h0, if_neg h0]
      obtain rfl : s = [] := List.eq_nil_of_length_eq_zero (by omega)
      exact (parses_pure _).at _
  obtain ⟨hd, hd'⟩ := fullBox_reads h (by simp; omega) (by decide) (by decide) rest
  refine ⟨_, hd, hd', ?_⟩
  unfold Cprt.serialize cstrPtr
  by_cases h0 : s.length > 0
  · simp only [h0, if_true, cstr_open hs]; rfl
  · simp only [h0, if_false]; rfl

theorem c69_elng (version flags : Nat) (s : Bytes) (hv : version < 256) (hf : flags < 2 ^ 24)
    (hs : Text s) (hn : 13 + s.length < 2 ^ 32) :
    BoxRoundTrip (13 + s.length) (elngSerialize version flags (some (s ++ [0]))) elngParse
      ((version, flags), some (s ++ [0]))
      (fullBox (fcc 'e' 'l' 'n' 'g') version flags (s ++ [0])) := by
  have ht : typeElng = fcc 'e' 'l' 'n' 'g' := by decide
  rw [← ht]
  have hz : elngSize s = 13 + s.length := by unfold elngSize; omega
  unfold elngSerialize cstrPtr
  simp only [cstr_text hs, hz]
  refine BoxRoundTrip.ofFull (type := typeElng) ?_ ?_ (by simp; omega) hn (by decide) (by decide)
  · exact (emits_putStr (by omega)).thenAssert
  · unfold elngParse
    refine ((parses_versionFlags hv hf).at _).bind ?_
    refine parsesAt_bytesLeft (n := s.length + 1) (by simp; omega) hn ?_
    exact ((parses_getBytes (by simp)).at _).bind_nil ((parses_pure _).at _)

/-- A language without its NUL is taken from the file; to write it again is undefined. -/
theorem c69_elng_open (version flags size : Nat) (s : Bytes) (hv : version < 256) (hf : flags < 2 ^ 24)
    (hs : Text s) (hn : 12 + s.length < 2 ^ 32) (rest : Bytes) :
    ∃ x hd, parseAtom elngParse (fullBox (fcc 'e' 'l' 'n' 'g') version flags s ++ rest) =
        .ok (((version, flags), x), hd, rest) ∧
      runW size (elngSerialize version flags x) = .ub := by
  have ht : typeElng = fcc 'e' 'l' 'n' 'g' := by decide
  rw [← ht]
  have h : ParsesAt (elngParse ⟨12 + s.length, typeElng, [], 0, 8⟩) 8
      (be 1 version ++ be 3 flags ++ s) ((version, flags), some s) := by
    unfold elngParse
    refine ((parses_versionFlags hv hf).at _).bind ?_
    refine parsesAt_bytesLeft (n := s.length) (by simp) hn ?_
    exact ((parses_getBytes rfl).at _).bind_nil ((parses_pure _).at _)
  obtain ⟨hd, hd'⟩ := fullBox_reads h hn (by decide) (by decide) rest
  refine ⟨_, hd, hd', ?_⟩
  unfold elngSerialize cstrPtr
  simp only [cstr_open hs]; rfl

/-- The address of the key management system; no address is written as an empty one. -/
theorem c69_ikms (version flags : Nat) (s : Bytes) (p : Option Bytes) (hv : version < 256) (hf : flags < 2 ^ 24)
    (hs : Text s) (hp : p = some (s ++ [0]) ∨ (p = none ∧ s = [])) (hn : 13 + s.length < 2 ^ 32) :
    BoxRoundTrip (13 + s.length) (ikmsSerialize version flags p) ikmsParse
      ((version, flags), some (s ++ [0]))
      (fullBox (fcc 'i' 'K' 'M' 'S') version flags (s ++ [0])) := by
  have ht : typeIKMS = fcc 'i' 'K' 'M' 'S' := by decide
  rw [← ht]
  have hz : ikmsSize s = 13 + s.length := by unfold ikmsSize; omega
  have hr : ParsesAt (ikmsParse ⟨13 + s.length, typeIKMS, [], 0, 8⟩) 8 (be 1 version ++ be 3 flags ++ (s ++ [0]))
      ((version, flags), some (s ++ [0])) := by
    unfold ikmsParse
    refine ((parses_versionFlags hv hf).at _).bind ?_
    refine parsesAt_bytesLeft (n := s.length + 1) (by simp; omega) hn ?_
    rw [if_pos (by omega)]
    exact ((parses_getBytes (by simp)).at _).bind_nil ((parses_pure _).at _)
  rcases hp with rfl | ⟨rfl, rfl⟩
  · unfold ikmsSerialize
    simp only [cstr_text hs, hz]
    refine BoxRoundTrip.ofFull (type := typeIKMS) ?_ hr (by simp; omega) hn (by decide) (by decide)
    exact (emits_putStr (by omega)).thenAssert
  · unfold ikmsSerialize
    simp only [hz]
    refine BoxRoundTrip.ofFull (type := typeIKMS) ?_ hr (by simp) hn (by decide) (by decide)
    exact (emits_put8 0).thenAssert

/-- An address without its NUL is taken from the file; to write it again is undefined. -/
theorem c69_ikms_open (version flags size : Nat) (s : Bytes) (hv : version < 256) (hf : flags < 2 ^ 24)
    (hs : Text s) (h0 : s ≠ []) (hn : 12 + s.length < 2 ^ 32) (rest : Bytes) :
    ∃ x hd, parseAtom ikmsParse (fullBox (fcc 'i' 'K' 'M' 'S') version flags s ++ rest) =
        .ok (((version, flags), x), hd, rest) ∧
      runW size (ikmsSerialize version flags x) = .ub := by
  have ht : typeIKMS = fcc 'i' 'K' 'M' 'S' := by decide
  rw [← ht]
  have hp : s.length > 0 := List.length_pos_iff.2 h0
  have h : ParsesAt (ikmsParse ⟨12 + s.length, typeIKMS, [], 0, 8⟩) 8
      (be 1 version ++ be 3 flags ++ s) ((version, flags), some s) := by
    unfold ikmsParse
    refine ((parses_versionFlags hv hf).at _).bind ?_
    refine parsesAt_bytesLeft (n := s.length) (by simp) hn ?_
    rw [if_pos hp]
    exact ((parses_getBytes rfl).at _).bind_nil ((parses_pure _).at _)
  obtain ⟨hd, hd'⟩ := fullBox_reads h hn (by decide) (by decide) rest
  refine ⟨_, hd, hd', ?_⟩
  unfold ikmsSerialize
  simp only [cstr_open hs]; rfl

/-! ## Schemes -/

/-- With an address. The flags say that there is one. -/
theorem c69_schm (type version scheme sv : Nat) (s : Bytes) (hty : type < 2 ^ 32) (htu : type ≠ typeUuid)
    (hv : version < 256) (h1 : scheme < 2 ^ 32) (h2 : sv < 2 ^ 32) (hs : Text s) (h0 : s ≠ [])
    (hn : 21 + s.length < 2 ^ 32) :
    BoxRoundTrip (21 + s.length) (Schm.serialize type version ⟨scheme, sv, some (s ++ [0])⟩) Schm.parse
      ((version, 1), ⟨scheme, sv, some (s ++ [0])⟩)
      (fullBox type version 1 (be 4 scheme ++ (be 4 sv ++ (s ++ [0])))) := by
  have hw : Schm.written ⟨scheme, sv, some (s ++ [0])⟩ = some (some s) := by
    unfold Schm.written
    simp only [cstr_text hs]
  have hz : (((12 + 8) % 4294967296) + ((1 + s.length) % 4294967296)) % 4294967296 = 21 + s.length := by omega
  unfold Schm.serialize
  simp only [hw, hz]
  refine BoxRoundTrip.ofFull (type := type) ?_ ?_ (by simp; omega) hn hty htu
  · exact (emits_put32 _).then ((emits_put32 _).then (emits_putStr (by omega)).thenAssert)
  · unfold Schm.parse
    refine ((parses_versionFlags hv (by decide)).at _).bind ?_
    refine ((parses_get32' h1).at _).bind ?_
    refine ((parses_get32' h2).at _).bind ?_
    refine parsesAt_bytesLeft (n := s.length + 1) (by simp; omega) hn ?_
    rw [if_pos (by omega), if_neg (by simp)]
    refine ((parses_getBytes (by simp)).at _).bind_nil ?_
    refine ParsesAt.bind_nil (a := ()) ?_ ?_
    · by_cases hb : s.length + 1 < 200
      · rw [if_pos hb]; exact parsesAt_debug hs (by omega)
      · rw [if_neg hb]; exact (parses_pure _).at _
    · exact parsesAt_assertRead _ (by simp; omega)

/-- Without an address. -/
theorem c69_schm_none (type version scheme sv : Nat) (hty : type < 2 ^ 32) (htu : type ≠ typeUuid)
    (hv : version < 256) (h1 : scheme < 2 ^ 32) (h2 : sv < 2 ^ 32) (p : Option Bytes) (t : Bytes)
    (hp : p = none ∨ p = some (0 :: t)) :
    BoxRoundTrip 20 (Schm.serialize type version ⟨scheme, sv, p⟩) Schm.parse
      ((version, 0), ⟨scheme, sv, none⟩) (fullBox type version 0 (be 4 scheme ++ be 4 sv)) := by
  have hw : Schm.written ⟨scheme, sv, p⟩ = some none := by
    rcases hp with rfl | rfl
    · rfl
    · simp [Schm.written, cstr]
  unfold Schm.serialize
  simp only [hw]
  refine BoxRoundTrip.ofFull (size := 20) (type := type) ?_ ?_ (by simp) (by decide) hty htu
  · exact (emits_put32 _).then (emits_put32 _).thenAssert
  · unfold Schm.parse
    refine ((parses_versionFlags hv (by decide)).at _).bind ?_
    refine ((parses_get32' h1).at _).bind ?_
    refine ((parses_get32' h2).at _).bind_nil ?_
    refine parsesAt_bytesLeft (n := 0) (by simp) (by simp) ?_
    rw [if_neg (by omega), if_neg (by simp)]
    exact parsesAt_assertRead _ (by simp)

/-- A short address without its NUL: the parser reads past its buffer. -/
theorem c69_schm_open (type version flags scheme sv : Nat) (s : Bytes) (hty : type < 2 ^ 32) (htu : type ≠ typeUuid)
    (hv : version < 256) (hf : flags < 2 ^ 24) (hf1 : flags % 2 = 1) (h1 : scheme < 2 ^ 32) (h2 : sv < 2 ^ 32)
    (hs : Text s) (h0 : s ≠ []) (hn : s.length < 200) (rest : Bytes) :
    parseAtom Schm.parse (fullBox type version flags (be 4 scheme ++ (be 4 sv ++ s)) ++ rest) = .ub := by
  have hp : s.length > 0 := List.length_pos_iff.2 h0
  refine fullBox_breaks ?_ (by simp; omega) hty htu rest
  unfold Schm.parse
  refine BreaksAt.bind ((parses_versionFlags hv hf).at _) ?_
  refine BreaksAt.bind ((parses_get32' h1).at _) ?_
  refine BreaksAt.bind ((parses_get32' h2).at _) ?_
  refine BreaksAt.left (n := s.length) (by simp; omega) (by simp; omega) ?_
  rw [if_pos hp, if_neg (by simp only; omega)]
  refine BreaksAt.bind_nil ((parses_getBytes rfl).at _) ?_
  refine BreaksAt.first ?_
  rw [if_pos hn]
  exact breaksAt_debug hs

/-- A compatible scheme made by the library is written as a scheme type box, so that a reader does not find it. -/
theorem c69_csch (version scheme sv : Nat) (hv : version < 256) (h1 : scheme < 2 ^ 32) (h2 : sv < 2 ^ 32) :
    runW 20 (Schm.serialize cschCreated version ⟨scheme, sv, none⟩) =
        .ok (fullBox (fcc 's' 'c' 'h' 'm') version 0 (be 4 scheme ++ be 4 sv)) ∧
      fcc 's' 'c' 'h' 'm' ≠ fcc 'c' 's' 'c' 'h' ∧ typeCsch = fcc 'c' 's' 'c' 'h' := by
  have ht : cschCreated = fcc 's' 'c' 'h' 'm' := by decide
  rw [ht]
  exact ⟨(c69_schm_none _ version scheme sv (by decide) (by decide) hv h1 h2 none [] (.inl rfl)).write,
    by decide, by decide⟩

/-! ## Handler -/

/-- The bytes of the fields before the name. -/
def hdlrFields (x : Hdlr) : Bytes :=
  be 4 x.component ++ (be 4 x.handler ++ (be 4 x.manufacturer ++ (be 4 x.cflags ++ be 4 x.mask)))

/-- The fields fit their words. -/
structure HdlrFits (x : Hdlr) : Prop where
  component : x.component < 2 ^ 32
  handler : x.handler < 2 ^ 32
  manufacturer : x.manufacturer < 2 ^ 32
  cflags : x.cflags < 2 ^ 32
  mask : x.mask < 2 ^ 32

theorem hdlr_parses {x : Hdlr} (hx : HdlrFits x) {version flags : Nat} (hv : version < 256) (hf : flags < 2 ^ 24)
    {buf name : Bytes} {len : Nat} (hn : nameOf buf = some (name, len)) (h1 : 32 + buf.length < 2 ^ 32)
    {size type : Nat} (hsz : size = 32 + buf.length)
    (hd : 0 < len → ∀ k, ParsesAt (debugStr 237 name) k [] ()) :
    ParsesAt (Hdlr.parse ⟨size, type, [], 0, 8⟩) 8 (be 1 version ++ be 3 flags ++ (hdlrFields x ++ buf))
      ((version, flags), ⟨x.component, x.handler, x.manufacturer, x.cflags, x.mask, name, len, false⟩) := by
  subst hsz
  unfold Hdlr.parse hdlrFields
  simp only [List.append_assoc]
  rw [← List.append_assoc (be 1 version)]
  refine ((parses_versionFlags hv hf).at _).bind ?_
  refine ((parses_get32' hx.component).at _).bind ?_
  refine ((parses_get32' hx.handler).at _).bind ?_
  refine ((parses_get32' hx.manufacturer).at _).bind ?_
  refine ((parses_get32' hx.cflags).at _).bind ?_
  refine ((parses_get32' hx.mask).at _).bind ?_
  refine parsesAt_bytesLeft (n := buf.length) (by simp) h1 ?_
  refine ((parses_getBytes rfl).at _).bind_nil ?_
  simp only [hn]
  refine ParsesAt.bind_nil (a := ()) ?_ ((parses_pure _).at _)
  by_cases hl : len > 0
  · rw [if_pos hl]; exact hd hl _
  · rw [if_neg hl]; exact (parses_pure _).at _

theorem hdlr_breaks {x : Hdlr} (hx : HdlrFits x) {version flags : Nat} (hv : version < 256) (hf : flags < 2 ^ 24)
    {buf : Bytes} (h1 : 32 + buf.length < 2 ^ 32)
    (hn : buf = [] ∨ ∃ name len, nameOf buf = some (name, len) ∧ 0 < len ∧ ∀ k bs, BreaksAt (debugStr 237 name) k bs)
    (rest : Bytes) :
    parseAtom Hdlr.parse (fullBox (fcc 'h' 'd' 'l' 'r') version flags (hdlrFields x ++ buf) ++ rest) = .ub := by
  refine fullBox_breaks ?_ (by simp [hdlrFields]; omega) (by decide) (by decide) rest
  unfold Hdlr.parse hdlrFields
  simp only [List.append_assoc]
  rw [← List.append_assoc (be 1 version)]
  refine BreaksAt.bind ((parses_versionFlags hv hf).at _) ?_
  refine BreaksAt.bind ((parses_get32' hx.component).at _) ?_
  refine BreaksAt.bind ((parses_get32' hx.handler).at _) ?_
  refine BreaksAt.bind ((parses_get32' hx.manufacturer).at _) ?_
  refine BreaksAt.bind ((parses_get32' hx.cflags).at _) ?_
  refine BreaksAt.bind ((parses_get32' hx.mask).at _) ?_
  refine BreaksAt.left (n := buf.length) (by simp; omega) (by simp; omega) ?_
  refine BreaksAt.bind_nil ((parses_getBytes rfl).at _) ?_
  rcases hn with rfl | ⟨name, len, hn, hl, hb⟩
  · exact fun _ => rfl
  · simp only [hn]
    refine BreaksAt.first ?_
    rw [if_pos hl]
    exact hb _ _

theorem nameOf_text {s : Bytes} (hs : ∀ b ∈ s.head?, schar b ≠ s.length) :
    nameOf (s ++ [0]) = some (s ++ [0], s.length) := by
  cases s with
  | nil => decide
  | cons b s =>
    have := hs b (by simp)
    have hg : (b :: (s ++ [0])).getLast? = some 0 := by
      rw [← List.cons_append]; exact List.getLast?_concat
    unfold nameOf
    simp only [List.cons_append, List.length_cons, List.length_append, List.length_nil] at this ⊢
    rw [if_neg (by omega), if_pos hg]
    simp

theorem emits_hdlr {x : Hdlr} {s : Bytes} :
    EmitsFull (put32 x.component ;; put32 x.handler ;; put32 x.manufacturer ;; put32 x.cflags ;; put32 x.mask ;;
      (putBytes s ;; put8 0) ;; W.assertFull) (hdlrFields x ++ (s ++ [0])) := by
  unfold hdlrFields
  simp only [List.append_assoc]
  exact (emits_put32 _).then ((emits_put32 _).then ((emits_put32 _).then ((emits_put32 _).then ((emits_put32 _).then
    ((emits_bytes s).seq (emits_put8 0)).thenAssert))))

/-- A handler with a name of at most 237 bytes whose first byte is not its length. -/
theorem c69_hdlr_partial (version flags : Nat) (x : Hdlr) (s : Bytes) (hv : version < 256) (hf : flags < 2 ^ 24)
    (hx : HdlrFits x) (hs : Text s) (hl : s.length ≤ 237) (hb : ∀ b ∈ s.head?, schar b ≠ s.length) :
    BoxRoundTrip (33 + s.length) ((x.setName s false).serialize version flags) Hdlr.parse
      ((version, flags), x.setName s false)
      (fullBox (fcc 'h' 'd' 'l' 'r') version flags (hdlrFields x ++ (s ++ [0]))) := by
  have ht : typeHdlr = fcc 'h' 'd' 'l' 'r' := by decide
  rw [← ht]
  have e1 : s.length % 4294967296 = s.length := by omega
  have hz : (x.setName s false).calcSize = 33 + s.length := by
    simp only [Hdlr.calcSize, Hdlr.setName, e1]; omega
  have hp : (x.setName s false).putName = putBytes s := by
    simp [Hdlr.putName, Hdlr.setName, e1]
    omega
  have hr : ParsesAt (Hdlr.parse ⟨33 + s.length, typeHdlr, [], 0, 8⟩) 8
      (be 1 version ++ be 3 flags ++ (hdlrFields x ++ (s ++ [0]))) ((version, flags), x.setName s false) := by
    have := hdlr_parses hx hv hf (nameOf_text hb) (by simp; omega) (size := 33 + s.length) (type := typeHdlr)
      (by simp; omega) (fun _ k => parsesAt_debug (t := []) (k := k) hs hl)
    simpa [Hdlr.setName, e1] using this
  unfold Hdlr.serialize
  rw [hz, hp]
  refine BoxRoundTrip.ofFull (type := typeHdlr) ?_ hr (by simp [hdlrFields]; omega) (by omega) (by decide) (by decide)
  exact emits_hdlr (x := x)

/-- A handler of a QuickTime file with a name of at most 127 bytes: the name is written with its length in front
and becomes a C string again. The box is no longer marked as QuickTime. -/
theorem c69_hdlr_qt (version flags : Nat) (x : Hdlr) (s : Bytes) (hv : version < 256) (hf : flags < 2 ^ 24)
    (hx : HdlrFits x) (hs : Text s) (hl : s.length ≤ 127) :
    BoxRoundTrip (33 + s.length) ((x.setName s true).serialize version flags) Hdlr.parse
      ((version, flags), { x with component := fcc 'm' 'h' 'l' 'r', manufacturer := fcc 'a' 'p' 'p' 'l' }.setName s false)
      (fullBox (fcc 'h' 'd' 'l' 'r') version flags
        (be 4 (fcc 'm' 'h' 'l' 'r') ++ (be 4 x.handler ++ (be 4 (fcc 'a' 'p' 'p' 'l') ++ (be 4 x.cflags ++
          (be 4 x.mask ++ (be 1 s.length ++ s))))))) := by
  have ht : typeHdlr = fcc 'h' 'd' 'l' 'r' := by decide
  have hm : (0x6d686c72 : Nat) = fcc 'm' 'h' 'l' 'r' := by decide
  have ha : (0x6170706c : Nat) = fcc 'a' 'p' 'p' 'l' := by decide
  rw [← ht]
  have e1 : s.length % 4294967296 = s.length := by omega
  have hz : (x.setName s true).calcSize = 33 + s.length := by
    simp only [Hdlr.calcSize, Hdlr.setName, e1]; omega
  have hp : (x.setName s true).putName = putBytes s := by
    simp [Hdlr.putName, Hdlr.setName, e1]
    omega
  have hn : nameOf (be 1 s.length ++ s) = some (s ++ [0], s.length) := by
    have h8 : (UInt8.ofNat s.length).toNat = s.length := by
      rw [ofNat_toNat_mod]; omega
    simp only [be1, List.cons_append, List.nil_append, nameOf, schar, h8, List.length_cons]
    rw [if_pos (by rw [if_pos (by omega)]; omega)]
    simp [pascal]
  have hx' : HdlrFits { x with component := fcc 'm' 'h' 'l' 'r', manufacturer := fcc 'a' 'p' 'p' 'l' } :=
    ⟨(by decide : fcc 'm' 'h' 'l' 'r' < 2 ^ 32), hx.handler, (by decide : fcc 'a' 'p' 'p' 'l' < 2 ^ 32), hx.cflags, hx.mask⟩
  have hr := hdlr_parses hx' hv hf hn (by simp; omega) (size := 33 + s.length) (type := typeHdlr) (by simp; omega)
      (fun _ k => parsesAt_debug (t := []) (k := k) hs (by omega))
  unfold Hdlr.serialize
  rw [hz, hp]
  refine BoxRoundTrip.ofFull (type := typeHdlr) ?_ ?_ (by simp; omega) (by omega) (by decide) (by decide)
  · rw [← hm, ← ha]
    have e2 : (x.setName s true).nameLength = s.length := e1
    rw [e2]
    exact (emits_put32 _).then ((emits_put32 _).then ((emits_put32 _).then ((emits_put32 _).then ((emits_put32 _).then
      ((emits_put8 _).seq (emits_bytes s)).thenAssert))))
  · simpa [hdlrFields, Hdlr.setName, e1] using hr

/-- A name whose first byte is its length loses that byte. -/
theorem c69_hdlr_mangled (version flags : Nat) (x : Hdlr) (b : UInt8) (s : Bytes) (hv : version < 256)
    (hf : flags < 2 ^ 24) (hx : HdlrFits x) (hs : Text s) (hb : b.toNat = s.length + 1) (hl : s.length + 1 < 128)
    (rest : Bytes) :
    runW (33 + (b :: s).length) ((x.setName (b :: s) false).serialize version flags) =
        .ok (fullBox (fcc 'h' 'd' 'l' 'r') version flags (hdlrFields x ++ (b :: s ++ [0]))) ∧
      ∃ y hd, parseAtom Hdlr.parse
          (fullBox (fcc 'h' 'd' 'l' 'r') version flags (hdlrFields x ++ (b :: s ++ [0])) ++ rest) =
          .ok (((version, flags), y), hd, rest) ∧ cstr y.name = some s ∧ y.nameLength = s.length + 1 := by
  have ht : typeHdlr = fcc 'h' 'd' 'l' 'r' := by decide
  rw [← ht]
  constructor
  · have e1 : (b :: s).length % 4294967296 = (b :: s).length := by simp; omega
    have hz : (x.setName (b :: s) false).calcSize = 33 + (b :: s).length := by
      simp only [Hdlr.calcSize, Hdlr.setName, e1]; simp; omega
    have hp : (x.setName (b :: s) false).putName = putBytes (b :: s) := by
      simp only [Hdlr.putName, Hdlr.setName, e1]
      simp
      omega
    unfold Hdlr.serialize
    rw [hz, hp]
    have := (emits_serFull (33 + (b :: s).length) typeHdlr version flags).then
      (emits_hdlr (x := x) (s := b :: s))
    have := this.runW (size := 33 + (b :: s).length) (by simp [hdlrFields]; omega) (by simp; omega)
    refine this.trans ?_
    have e2 : 12 + (hdlrFields x ++ (b :: s ++ [0])).length = 33 + (b :: s).length := by simp [hdlrFields]; omega
    rw [fullBox_eq, e2]
    simp
  · have hn : nameOf (b :: s ++ [0]) = some (s ++ 0 :: [0], s.length + 1) := by
      have hc : schar b = b.toNat := by unfold schar; rw [if_pos (by omega)]
      simp only [nameOf, List.cons_append, List.length_cons, List.length_append, List.length_nil, hc]
      rw [if_pos (by omega)]
      simp [pascal]
    have hr := hdlr_parses hx hv hf hn (by simp; omega) (size := 12 + (hdlrFields x ++ (b :: s ++ [0])).length)
      (type := typeHdlr) (by simp [hdlrFields]; omega) (fun _ k => parsesAt_debug (t := [0]) (k := k) hs (by omega))
    obtain ⟨hd, hd'⟩ := fullBox_reads hr (by simp [hdlrFields]; omega) (by decide) (by decide) rest
    exact ⟨_, hd, hd', cstr_text hs [0], rfl⟩

/-- A longer name, correctly ended, overflows the array of the debugging message. -/
theorem c69_hdlr_long (version flags : Nat) (x : Hdlr) (s : Bytes) (hv : version < 256) (hf : flags < 2 ^ 24)
    (hx : HdlrFits x) (hs : Text s) (hl : 237 < s.length) (hn : 33 + s.length < 2 ^ 32) (rest : Bytes) :
    parseAtom Hdlr.parse (fullBox (fcc 'h' 'd' 'l' 'r') version flags (hdlrFields x ++ (s ++ [0])) ++ rest) = .ub := by
  have hb : ∀ b ∈ s.head?, schar b ≠ s.length := by
    intro b _ h
    have : b.toNat < 256 := b.toNat_lt
    unfold schar at h
    split at h <;> omega
  exact hdlr_breaks hx hv hf (by simp; omega)
    (.inr ⟨_, _, nameOf_text hb, by omega, fun k bs => breaksAt_long (t := []) hs hl⟩) rest

/-- A name without its NUL, that is not a Pascal string: the parser reads past its buffer. -/
theorem c69_hdlr_open (version flags : Nat) (x : Hdlr) (b : UInt8) (s : Bytes) (hv : version < 256)
    (hf : flags < 2 ^ 24) (hx : HdlrFits x) (hs : Text (b :: s)) (hb : schar b ≠ s.length)
    (hn : 33 + s.length < 2 ^ 32) (rest : Bytes) :
    parseAtom Hdlr.parse (fullBox (fcc 'h' 'd' 'l' 'r') version flags (hdlrFields x ++ b :: s) ++ rest) = .ub := by
  have h : nameOf (b :: s) = some (b :: s, s.length + 1) := by
    unfold nameOf
    simp only [List.length_cons]
    rw [if_neg (by omega), if_neg ?_]
    intro h
    exact hs 0 (List.mem_of_getLast? h) rfl
  exact hdlr_breaks hx hv hf (by simp; omega) (.inr ⟨_, _, h, by omega, fun k bs => breaksAt_debug hs⟩) rest

/-- In particular a QuickTime name of 128 to 255 bytes, as the library writes it. -/
theorem c69_hdlr_qt_long (version flags : Nat) (x : Hdlr) (s : Bytes) (hv : version < 256) (hf : flags < 2 ^ 24)
    (hx : HdlrFits x) (hs : Text s) (h1 : 128 ≤ s.length) (h2 : s.length < 256) (rest : Bytes) :
    parseAtom Hdlr.parse (fullBox (fcc 'h' 'd' 'l' 'r') version flags
      (hdlrFields x ++ UInt8.ofNat s.length :: s) ++ rest) = .ub := by
  have h8 : (UInt8.ofNat s.length).toNat = s.length := by
    rw [ofNat_toNat_mod]; omega
  refine c69_hdlr_open version flags x _ s hv hf hx ?_ ?_ (by omega) rest
  · intro b hb
    rcases List.mem_cons.1 hb with rfl | hb
    · intro h
      rw [h] at h8
      simp at h8
      omega
    · exact hs b hb
  · unfold schar
    rw [h8, if_neg (by omega)]
    omega

/-- No name at all: the parser reads the first byte of an empty buffer. -/
theorem c69_hdlr_empty (version flags : Nat) (x : Hdlr) (hv : version < 256) (hf : flags < 2 ^ 24)
    (hx : HdlrFits x) (rest : Bytes) :
    parseAtom Hdlr.parse (fullBox (fcc 'h' 'd' 'l' 'r') version flags (hdlrFields x ++ []) ++ rest) = .ub :=
  hdlr_breaks hx hv hf (by simp) (.inl rfl) rest

/-! ## Data references -/

theorem url_parses {version flags : Nat} {s : Bytes} (hv : version < 256) (hf : flags < 2 ^ 24)
    (hs : Text s) (hn : 13 + s.length < 2 ^ 32) {size : Nat} (hz : size = 13 + s.length) :
    ParsesAt (Url.parse ⟨size, typeUrl, [], 0, 8⟩) 8 (be 1 version ++ be 3 flags ++ (s ++ [0]))
      ((version, flags), ⟨some (s ++ [0]), s.length + 1⟩) := by
  subst hz
  unfold Url.parse
  refine ((parses_versionFlags hv hf).at _).bind ?_
  refine parsesAt_bytesLeft (n := s.length + 1) (by simp; omega) hn ?_
  rw [if_pos (by omega), if_pos rfl]
  refine ((parses_getBytes (by simp)).at _).bind_nil ?_
  refine ParsesAt.bind_nil (a := ()) ?_ ((parses_pure _).at _)
  by_cases hb : s.length + 1 < 200
  · rw [if_pos hb]; exact parsesAt_debug hs (by omega)
  · rw [if_neg hb]; exact (parses_pure _).at _

theorem url_self_parses {version flags : Nat} (hv : version < 256) (hf : flags < 2 ^ 24) :
    ParsesAt (Url.parse ⟨12, typeUrl, [], 0, 8⟩) 8 (be 1 version ++ be 3 flags ++ [])
      ((version, flags), ⟨none, 0⟩) := by
  unfold Url.parse
  refine ((parses_versionFlags hv hf).at _).bind ?_
  refine parsesAt_bytesLeft (n := 0) (by simp) (by simp) ?_
  rw [if_neg (by omega)]
  exact (parses_pure _).at _

/-- An address in another file. -/
theorem c69_url (version flags k : Nat) (s : Bytes) (hv : version < 256) (hf : flags < 2 ^ 24) (h0 : flags % 2 = 0)
    (hs : Text s) (hn : 13 + s.length < 2 ^ 32) :
    BoxRoundTrip (13 + s.length) (Url.serialize version flags ⟨some (s ++ [0]), k⟩) Url.parse
      ((version, flags), ⟨some (s ++ [0]), s.length + 1⟩)
      (fullBox (fcc 'u' 'r' 'l' ' ') version flags (s ++ [0])) := by
  have ht : typeUrl = fcc 'u' 'r' 'l' ' ' := by decide
  rw [← ht]
  have hz : Url.calcSize (some s) = 13 + s.length := by simp only [Url.calcSize]; omega
  unfold Url.serialize Url.written
  simp only [h0, if_true, cstr_text hs, Option.map_some, hz]
  refine BoxRoundTrip.ofFull (type := typeUrl) ?_ ?_ (by simp; omega) hn (by decide) (by decide)
  · exact (emits_putStr (by omega)).thenAssert
  · exact url_parses hv hf hs hn rfl

/-- The same file: no address is written. -/
theorem c69_url_self (version flags : Nat) (x : Url) (hv : version < 256) (hf : flags < 2 ^ 24)
    (h0 : flags % 2 = 1 ∨ x.location = none) :
    BoxRoundTrip 12 (x.serialize version flags) Url.parse ((version, flags), ⟨none, 0⟩)
      (fullBox (fcc 'u' 'r' 'l' ' ') version flags []) := by
  have ht : typeUrl = fcc 'u' 'r' 'l' ' ' := by decide
  rw [← ht]
  have hw : x.written flags = some none := by
    unfold Url.written
    rcases h0 with h0 | h0
    · rw [if_neg (by omega)]
    · rw [h0]; simp
  unfold Url.serialize
  simp only [hw, Url.calcSize]
  exact BoxRoundTrip.ofFull (type := typeUrl) emitsFull_assert (url_self_parses hv hf) (by simp) (by decide)
    (by decide) (by decide)

/-- A short address without its NUL: the parser reads past its buffer. -/
theorem c69_url_open (version flags : Nat) (s : Bytes) (hv : version < 256) (hf : flags < 2 ^ 24)
    (hs : Text s) (h0 : s ≠ []) (hn : s.length < 200) (rest : Bytes) :
    parseAtom Url.parse (fullBox (fcc 'u' 'r' 'l' ' ') version flags s ++ rest) = .ub := by
  have hp : s.length > 0 := List.length_pos_iff.2 h0
  refine fullBox_breaks ?_ (by omega) (by decide) (by decide) rest
  unfold Url.parse
  refine BreaksAt.bind ((parses_versionFlags hv hf).at _) ?_
  refine BreaksAt.left (n := s.length) (by simp) (by simp; omega) ?_
  have ht : fcc 'u' 'r' 'l' ' ' = typeUrl := by decide
  rw [if_pos hp, if_pos ht]
  refine BreaksAt.bind_nil ((parses_getBytes rfl).at _) ?_
  refine BreaksAt.first ?_
  rw [if_pos hn]
  exact breaksAt_debug hs

/-- An alias of QuickTime of more than 256 bytes is read into an array of 256. -/
theorem c69_alis (version flags : Nat) (s : Bytes) (hv : version < 256) (hf : flags < 2 ^ 24)
    (hl : 256 < s.length) (hn : 12 + s.length < 2 ^ 32) (rest : Bytes) :
    parseAtom Url.parse (fullBox (fcc 'a' 'l' 'i' 's') version flags s ++ rest) = .ub := by
  refine fullBox_breaks ?_ hn (by decide) (by decide) rest
  unfold Url.parse
  refine BreaksAt.bind ((parses_versionFlags hv hf).at _) ?_
  refine BreaksAt.left (n := s.length) (by simp) hn ?_
  have ht : ¬ fcc 'a' 'l' 'i' 's' = typeUrl := by decide
  rw [if_pos (by omega), if_neg ht, if_pos (by omega)]
  exact BreaksAt.bind_nil ((parses_getBytes rfl).at _) fun _ => rfl

/-- `MP4AddMediaDataReference`: a handle with no NUL byte gives an entry that cannot be written. -/
theorem c69_handle_open (size : Nat) (s : Bytes) (hs : Text s) :
    runW size (newEntry (some s) none).serialize = .ub := by
  simp [newEntry, Entry.serialize, Url.serialize, Url.written, cstr_open hs]
  rfl

/-- A URN reference is written with the location before the name, and so it is parsed with the name for the
location: the standard has the name first. -/
theorem c69_urn_swapped (urn loc : Bytes) (hu : Text urn) (hl : Text loc)
    (hn : 14 + loc.length + urn.length < 2 ^ 32) (rest : Bytes) :
    runW (14 + loc.length + urn.length) (newEntry (some (loc ++ [0])) (some (urn ++ [0]))).serialize =
        .ok (fullBox (fcc 'u' 'r' 'n' ' ') 0 0 ((loc ++ [0]) ++ (urn ++ [0]))) ∧
      ∃ x hd, parseAtom Urn.parse (fullBox (fcc 'u' 'r' 'n' ' ') 0 0 ((loc ++ [0]) ++ (urn ++ [0])) ++ rest) =
          .ok (((0, 0), x), hd, rest) ∧
        (x.nameURN.bind cstr) = some loc ∧ (x.location.bind cstr) = some urn := by
  have ht : typeUrn = fcc 'u' 'r' 'n' ' ' := by decide
  rw [← ht]
  constructor
  · have hz : ((12 + strSize loc) % 4294967296 + strSize urn) % 4294967296 = 14 + loc.length + urn.length := by
      rw [strSize_eq (by omega), strSize_eq (by omega)]; omega
    simp only [newEntry, Entry.serialize, Urn.serialize, opt, cstr_text hu, cstr_text hl, Option.map_some, optSize, hz]
    rw [if_pos trivial, fullBox_eq]
    have e : 12 + ((loc ++ [0]) ++ (urn ++ [0])).length = 14 + loc.length + urn.length := by simp; omega
    rw [e]
    have := ((emits_serFull (14 + loc.length + urn.length) typeUrn 0 0).then
      ((emits_putStr (s := loc) (by omega)).seq (emits_putStr (s := urn) (by omega))).thenAssert).runW
      (size := 14 + loc.length + urn.length) (by simp; omega) hn
    refine this.trans ?_
    simp
  · have hr : ParsesAt (Urn.parse ⟨12 + ((loc ++ [0]) ++ (urn ++ [0])).length, typeUrn, [], 0, 8⟩) 8
        (be 1 0 ++ be 3 0 ++ ((loc ++ [0]) ++ (urn ++ [0])))
        ((0, 0), ⟨some urnLabel, some (loc ++ 0 :: (urn ++ [0])), loc.length + 1, some (urn ++ [0]),
          urn.length + 1⟩) := by
      unfold Urn.parse
      refine ((parses_versionFlags (by decide) (by decide)).at _).bind ?_
      refine parsesAt_bytesLeft (n := loc.length + 1 + (urn.length + 1)) (by simp; omega) (by simp; omega) ?_
      refine ((parses_getBytes (by simp; omega)).at _).bind_nil ?_
      rw [if_pos (by omega)]
      have e : (loc ++ [0]) ++ (urn ++ [0]) = loc ++ 0 :: (urn ++ [0]) := by simp
      rw [e, splitNul_text hl]
      simp only [List.length_append, List.length_singleton]
      rw [show loc.length + 1 + (urn.length + 1) - (loc.length + 1) = urn.length + 1 by omega]
      exact (parses_pure _).at _
    obtain ⟨hd, hd'⟩ := fullBox_reads hr (by simp; omega) (by decide) (by decide) rest
    refine ⟨_, hd, hd', ?_, ?_⟩
    · exact cstr_text hl _
    · exact cstr_text hu []

/-- A URN reference of a file, name before location as in the standard, is written with a text of the library
for its name, after the location. -/
theorem c69_urn_again (version flags : Nat) (urn loc : Bytes) (hv : version < 256) (hf : flags < 2 ^ 24)
    (h0 : flags % 2 = 0) (hu : Text urn) (hl : Text loc) (hn : 30 + loc.length + urn.length < 2 ^ 32)
    (rest : Bytes) :
    ∃ x hd, parseAtom Urn.parse (fullBox (fcc 'u' 'r' 'n' ' ') version flags ((urn ++ [0]) ++ (loc ++ [0])) ++ rest) =
        .ok (((version, flags), x), hd, rest) ∧
      (x.nameURN.bind cstr) = some urn ∧ (x.location.bind cstr) = some loc ∧
      runW (28 + loc.length) (x.serialize version flags) =
        .ok (fullBox (fcc 'u' 'r' 'n' ' ') version flags
          ((loc ++ [0]) ++ [100, 97, 116, 97, 32, 101, 110, 116, 114, 121, 32, 85, 82, 78, 0])) := by
  have ht : typeUrn = fcc 'u' 'r' 'n' ' ' := by decide
  rw [← ht]
  have hr : ParsesAt (Urn.parse ⟨12 + ((urn ++ [0]) ++ (loc ++ [0])).length, typeUrn, [], 0, 8⟩) 8
      (be 1 version ++ be 3 flags ++ ((urn ++ [0]) ++ (loc ++ [0])))
      ((version, flags), ⟨some urnLabel, some (urn ++ 0 :: (loc ++ [0])), urn.length + 1, some (loc ++ [0]),
        loc.length + 1⟩) := by
    unfold Urn.parse
    refine ((parses_versionFlags hv hf).at _).bind ?_
    refine parsesAt_bytesLeft (n := urn.length + 1 + (loc.length + 1)) (by simp; omega) (by simp; omega) ?_
    refine ((parses_getBytes (by simp; omega)).at _).bind_nil ?_
    rw [if_pos (by omega)]
    have e : (urn ++ [0]) ++ (loc ++ [0]) = urn ++ 0 :: (loc ++ [0]) := by simp
    rw [e, splitNul_text hu]
    simp only [List.length_append, List.length_singleton]
    rw [show urn.length + 1 + (loc.length + 1) - (urn.length + 1) = loc.length + 1 by omega]
    exact (parses_pure _).at _
  obtain ⟨hd, hd'⟩ := fullBox_reads hr (by simp; omega) (by decide) (by decide) rest
  refine ⟨_, hd, hd', cstr_text hu _, cstr_text hl [], ?_⟩
  obtain ⟨lab, hlab, htext⟩ : ∃ lab, urnLabel = lab ++ [0] ∧ Text lab ∧ lab.length = 14 :=
    ⟨[100, 97, 116, 97, 32, 101, 110, 116, 114, 121, 32, 85, 82, 78], by decide, by unfold Text; decide, rfl⟩
  have hz : ((12 + strSize loc) % 4294967296 + strSize lab) % 4294967296 = 28 + loc.length := by
    rw [strSize_eq (by omega), strSize_eq (by omega)]; omega
  show runW (28 + loc.length) (Urn.serialize version flags _) = .ok (fullBox typeUrn version flags (_ ++ urnLabel))
  rw [hlab]
  simp only [Urn.serialize, opt, cstr_text hl, cstr_text htext.1, Option.map_some, optSize, hz]
  rw [if_pos h0, fullBox_eq]
  have e : 12 + ((loc ++ [0]) ++ (lab ++ [0])).length = 28 + loc.length := by simp; omega
  rw [e]
  have := ((emits_serFull (28 + loc.length) typeUrn version flags).then
    ((emits_putStr (s := loc) (by omega)).seq (emits_putStr (s := lab) (by omega))).thenAssert).runW
    (size := 28 + loc.length) (by simp; omega) (by omega)
  refine this.trans ?_
  simp

/-- A name with no location, which the standard allows: it is parsed, and to write it again is undefined. -/
theorem c69_urn_name_only (version flags size : Nat) (urn : Bytes) (hv : version < 256) (hf : flags < 2 ^ 24)
    (h0 : flags % 2 = 0) (hu : Text urn) (hn : 13 + urn.length < 2 ^ 32) (rest : Bytes) :
    ∃ x hd, parseAtom Urn.parse (fullBox (fcc 'u' 'r' 'n' ' ') version flags (urn ++ [0]) ++ rest) =
        .ok (((version, flags), x), hd, rest) ∧ runW size (x.serialize version flags) = .ub := by
  have ht : typeUrn = fcc 'u' 'r' 'n' ' ' := by decide
  rw [← ht]
  have hr : ParsesAt (Urn.parse ⟨12 + (urn ++ [0]).length, typeUrn, [], 0, 8⟩) 8
      (be 1 version ++ be 3 flags ++ (urn ++ [0]))
      ((version, flags), ⟨some urnLabel, some (urn ++ [0]), urn.length + 1, some [], 0⟩) := by
    unfold Urn.parse
    refine ((parses_versionFlags hv hf).at _).bind ?_
    refine parsesAt_bytesLeft (n := urn.length + 1) (by simp) (by simp; omega) ?_
    refine ((parses_getBytes (by simp)).at _).bind_nil ?_
    rw [if_pos (by omega), splitNul_text hu]
    simp only [List.length_append, List.length_singleton, Nat.sub_self]
    exact (parses_pure _).at _
  obtain ⟨hd, hd'⟩ := fullBox_reads hr (by simp; omega) (by decide) (by decide) rest
  refine ⟨_, hd, hd', ?_⟩
  simp [Urn.serialize, h0, opt, cstr]
  rfl

/-- `MP4GetMediaDataReference` gives back the address of a URL reference. -/
theorem c69_get_url (u u0 : Bytes) : getReference (newEntry (some u) none) u0 = .ok (u, u0) := by
  unfold newEntry getReference copyOut
  cases u with
  | nil => rfl
  | cons b u => simp [Res.bind]

/-- For a URN reference it puts a piece of the location into the first handle and nothing into the second; the
piece is as long as the name, and if the location is shorter its buffer is read past its end. -/
theorem c69_get_urn (loc urn u0 : Bytes) :
    getReference (newEntry (some loc) (some urn)) u0 =
      if loc.length < urn.length then .ub else .ok (loc.take urn.length, u0) := by
  unfold newEntry getReference copyOut
  by_cases h1 : urn.length = 0
  · obtain rfl := List.eq_nil_of_length_eq_zero h1
    cases loc <;> simp [Res.bind]
  · by_cases h2 : loc.length < urn.length
    · have h3 : (if loc.length = 0 then (.ok [] : Res Bytes) else if loc.length < loc.length then .ub
          else .ok (loc.take loc.length)) = .ok loc := by
        cases loc <;> simp
      simp only [h3, h2, if_true, if_neg h1, Res.bind]
    · have h3 : (if loc.length = 0 then (.ok [] : Res Bytes) else if loc.length < loc.length then .ub
          else .ok (loc.take loc.length)) = .ok loc := by
        cases loc <;> simp
      simp only [h3, h2, if_false, if_neg h1, Res.bind]

/-! ## The table of data references -/

/-- `getEntry` counts from 1. -/
theorem c69_getEntry (es : List Entry) (i : Nat) :
    getEntry es i = if h : 1 ≤ i ∧ i ≤ es.length then .ok (es[i - 1]'(by omega)) else .err .badParam := by
  unfold getEntry
  by_cases h : 1 ≤ i ∧ i ≤ es.length
  · rw [dif_pos h, if_neg (by omega), List.getElem?_eq_getElem (by omega)]
  · rw [dif_neg h, if_pos (by omega)]

/-- A URL reference: version, flags and address. -/
structure Ref where
  version : Nat
  flags : Nat
  loc : Bytes

/-- The reference is a valid one. -/
structure Ref.Fits (r : Ref) : Prop where
  version : r.version < 256
  flags : r.flags < 2 ^ 24
  text : Text r.loc

/-- The entry in memory. -/
def Ref.entry (r : Ref) : Entry := .url r.version r.flags ⟨some (r.loc ++ [0]), r.loc.length + 1⟩

/-- The box in the file: the address is there unless the flags say that it is the same file. -/
def Ref.bytes (r : Ref) : Bytes :=
  fullBox (fcc 'u' 'r' 'l' ' ') r.version r.flags (if r.flags % 2 = 0 then r.loc ++ [0] else [])

/-- The entry as it is parsed. -/
def Ref.seen (r : Ref) : Entry :=
  .url r.version r.flags (if r.flags % 2 = 0 then ⟨some (r.loc ++ [0]), r.loc.length + 1⟩ else ⟨none, 0⟩)

theorem Ref.size_eq {r : Ref} (hr : r.Fits) (hn : r.bytes.length < 2 ^ 32) : r.entry.size = r.bytes.length := by
  unfold Ref.entry Ref.bytes Entry.size Url.written at *
  by_cases h : r.flags % 2 = 0
  · simp only [h, if_true, cstr_text hr.text, Option.map_some, Option.getD_some, fullBox_eq, Url.calcSize] at *
    simp only [List.length_append, be_length, List.length_singleton] at *
    omega
  · simp only [h, if_false, Option.getD_some, fullBox_eq, Url.calcSize] at *
    simp

theorem Ref.write {r : Ref} (hr : r.Fits) (hn : r.bytes.length < 2 ^ 32) :
    runW r.entry.size r.entry.serialize = .ok r.bytes := by
  have hz := Ref.size_eq hr hn
  rw [hz]
  unfold Ref.entry Ref.bytes Entry.serialize at *
  by_cases h : r.flags % 2 = 0
  · rw [if_pos h] at hn ⊢
    have e : (fullBox (fcc 'u' 'r' 'l' ' ') r.version r.flags (r.loc ++ [0])).length = 13 + r.loc.length := by
      simp [fullBox_eq]; omega
    rw [e] at hn ⊢
    exact (c69_url r.version r.flags _ r.loc hr.version hr.flags h hr.text hn).write
  · rw [if_neg h] at hn ⊢
    exact (c69_url_self r.version r.flags _ hr.version hr.flags (.inl (by omega))).write

theorem entry_url {size : Nat} {bs : Bytes} {vf : VF} {x : Url}
    (h : ParsesAt (Url.parse ⟨size, typeUrl, [], 0, 8⟩) 8 bs (vf, x)) :
    ParsesAt (entryParse ⟨size, typeUrl, [], 0, 8⟩) 8 bs (some (.url vf.1 vf.2 x)) := by
  unfold entryParse
  rw [if_pos rfl]
  exact h.bind_nil ((parses_pure _).at _)

theorem Ref.read {r : Ref} (hr : r.Fits) (hn : r.bytes.length < 2 ^ 32) :
    Parses (getAtom entryParse) r.bytes (some r.seen) := by
  have ht : typeUrl = fcc 'u' 'r' 'l' ' ' := by decide
  unfold Ref.bytes Ref.seen at *
  rw [← ht] at hn ⊢
  by_cases h : r.flags % 2 = 0
  · rw [if_pos h] at hn ⊢
    rw [if_pos h]
    have e : (fullBox typeUrl r.version r.flags (r.loc ++ [0])).length = 13 + r.loc.length := by
      simp [fullBox_eq]; omega
    rw [e] at hn
    unfold fullBox
    refine parses_getAtom ?_ (by simp; omega) (by decide) (by decide)
    exact entry_url (url_parses hr.version hr.flags hr.text hn (by simp; omega))
  · rw [if_neg h] at hn ⊢
    rw [if_neg h]
    unfold fullBox
    refine parses_getAtom ?_ (by simp) (by decide) (by decide)
    have := entry_url (url_self_parses hr.version hr.flags)
    simpa using this

theorem drefSize_fold (rs : List Ref) (hr : ∀ r ∈ rs, r.Fits) : ∀ a : Nat,
    a + (rs.flatMap Ref.bytes).length < 2 ^ 32 →
    (rs.map Ref.entry).foldl (fun n e => (n + e.size) % 4294967296) a = a + (rs.flatMap Ref.bytes).length := by
  induction rs with
  | nil => intro a _; rfl
  | cons r rs ih =>
    intro a ha
    simp only [List.flatMap_cons, List.length_append] at ha ⊢
    simp only [List.map_cons, List.foldl_cons]
    rw [Ref.size_eq (hr r (by simp)) (by omega), Nat.mod_eq_of_lt (by omega),
      ih (fun x hx => hr x (by simp [hx])) _ (by omega)]
    omega

/-- A table of URL references of any number is written and parsed again. -/
theorem c69_dref (version flags : Nat) (rs : List Ref) (hv : version < 256) (hf : flags < 2 ^ 24)
    (hr : ∀ r ∈ rs, r.Fits) (hc : rs.length < 2 ^ 32) (hn : 16 + (rs.flatMap Ref.bytes).length < 2 ^ 32) :
    BoxRoundTrip (16 + (rs.flatMap Ref.bytes).length) (drefSerialize version flags (rs.map Ref.entry)) drefParse
      ((version, flags), rs.map fun r => some r.seen)
      (fullBox (fcc 'd' 'r' 'e' 'f') version flags (be 4 rs.length ++ rs.flatMap Ref.bytes)) := by
  have ht : typeDref = fcc 'd' 'r' 'e' 'f' := by decide
  rw [← ht]
  have hall : ∀ r ∈ rs, r.bytes.length < 2 ^ 32 := by
    intro r h
    obtain ⟨a, b, rfl⟩ := List.append_of_mem h
    simp only [List.flatMap_append, List.flatMap_cons, List.length_append] at hn
    omega
  unfold drefSerialize
  have hz : drefSize (rs.map Ref.entry) = 16 + (rs.flatMap Ref.bytes).length := drefSize_fold rs hr 16 hn
  rw [hz, List.length_map]
  refine BoxRoundTrip.ofFull (type := typeDref) ?_ ?_ (by simp; omega) hn (by decide) (by decide)
  · refine (emits_put32 _).then (Emits.thenAssert ?_)
    have : ∀ xs : List Ref, W.each (fun e => nested e.size e.serialize) (xs.map Ref.entry) =
        W.each (fun r : Ref => nested r.entry.size r.entry.serialize) xs := by
      intro xs
      induction xs with
      | nil => rfl
      | cons x xs ih => simp only [List.map_cons, W.each, ih]
    rw [this]
    refine Emits.each rs fun r h => emits_nested (Ref.write (hr r h) (hall r h)) ?_
    exact (Ref.size_eq (hr r h) (hall r h)).symm
  · unfold drefParse
    refine ((parses_versionFlags hv hf).at _).bind ?_
    refine ((parses_get32' hc).at _).bind ?_
    refine ((parses_repeat_map rs Ref.bytes (fun r => some r.seen) (fun r h => Ref.read (hr r h) (hall r h)) rfl).at _).bind_nil ?_
    refine parsesAt_bytesRead ?_
    rw [if_neg (by simp)]
    exact (parses_pure _).at _

/-! ## Cases that meet the hypotheses -/

/-- "en". -/
def en : Bytes := [101, 110]

theorem en_text : Text en := by unfold Text; decide

example := c69_cprt 0 0 21956 en (by decide) (by decide) (by decide) en_text (by decide)
example := c69_cprt_open 0 0 21956 100 en (by decide) (by decide) (by decide) en_text (by decide) []
example := c69_elng 0 0 en (by decide) (by decide) en_text (by decide)
example := c69_elng_open 0 0 100 en (by decide) (by decide) en_text (by decide) []
example := c69_ikms 0 0 en _ (by decide) (by decide) en_text (.inl rfl) (by decide)
example := c69_ikms 0 0 [] _ (by decide) (by decide) (by unfold Text; decide) (.inr ⟨rfl, rfl⟩) (by decide)
example := c69_ikms_open 0 0 100 en (by decide) (by decide) en_text (by decide) (by decide) []
example := c69_schm typeSchm 0 0x69414543 1 en (by decide) (by decide) (by decide) (by decide) (by decide) en_text
  (by decide) (by decide)
example := c69_schm_none typeSchm 0 0x69414543 1 (by decide) (by decide) (by decide) (by decide) (by decide) none []
  (.inl rfl)
example := c69_schm_open typeSchm 0 1 0x69414543 1 en (by decide) (by decide) (by decide) (by decide) (by decide)
  (by decide) (by decide) en_text (by decide) (by decide) []
example := c69_csch 0 0x69414543 1 (by decide) (by decide) (by decide)

/-- A video handler. -/
def vide : Hdlr := ⟨0, 0x76696465, 0, 0, 0, [], 0, false⟩

theorem vide_fits : HdlrFits vide := ⟨by decide, by decide, by decide, by decide, by decide⟩

example := c69_hdlr_partial 0 0 vide en (by decide) (by decide) vide_fits en_text (by decide)
  (by simp [en, schar])
example := c69_hdlr_qt 0 0 vide en (by decide) (by decide) vide_fits en_text (by decide)
/-- A name of 32 bytes that starts with a space, which is 32. -/
example := c69_hdlr_mangled 0 0 vide 32 (List.replicate 31 65) (by decide) (by decide) vide_fits
  (by unfold Text; decide) (by decide) (by decide) []
example := c69_hdlr_long 0 0 vide (List.replicate 238 65) (by decide) (by decide) vide_fits
  (by intro b hb; rw [List.eq_of_mem_replicate hb]; decide) (by rw [List.length_replicate]; decide)
  (by rw [List.length_replicate]; decide) []
example := c69_hdlr_open 0 0 vide 101 [110] (by decide) (by decide) vide_fits en_text (by decide) (by decide) []
example := c69_hdlr_qt_long 0 0 vide (List.replicate 128 65) (by decide) (by decide) vide_fits
  (by intro b hb; rw [List.eq_of_mem_replicate hb]; decide) (by rw [List.length_replicate]; decide)
  (by rw [List.length_replicate]; decide) []
example := c69_hdlr_empty 0 0 vide (by decide) (by decide) vide_fits []

example := c69_url 0 0 3 en (by decide) (by decide) (by decide) en_text (by decide)
example := c69_url_self 0 1 ⟨some en, 2⟩ (by decide) (by decide) (.inl (by decide))
example := c69_url_open 0 0 en (by decide) (by decide) en_text (by decide) (by decide) []
example := c69_alis 0 0 (List.replicate 257 0) (by decide) (by decide) (by rw [List.length_replicate]; decide)
  (by rw [List.length_replicate]; decide) []
example := c69_handle_open 100 en en_text
example := c69_urn_swapped en [108] en_text (by unfold Text; decide) (by decide) []
example := c69_urn_again 0 0 en [108] (by decide) (by decide) (by decide) en_text (by unfold Text; decide) (by decide) []
example := c69_urn_name_only 0 0 100 en (by decide) (by decide) (by decide) en_text (by decide) []
example : getReference (newEntry (some en) (some [117])) [] = .ok ([101], []) := c69_get_urn en [117] []
example : getEntry [newEntry none none] 1 = .ok (newEntry none none) := by decide
example : getEntry [newEntry none none] 0 = .err .badParam := by decide
example := c69_dref 0 0 [⟨0, 1, []⟩, ⟨0, 0, en⟩] (by decide) (by decide)
  (by
    intro r hr
    simp at hr
    rcases hr with rfl | rfl
    · exact ⟨by decide, by decide, by unfold Text; decide⟩
    · exact ⟨by decide, by decide, en_text⟩) (by decide) (by decide)

end Verif.Str
