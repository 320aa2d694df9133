import Verif.Spec.Handler
import Verif.Lemmas.Handle

/-!
# C86: samples and items in other files
-/

namespace Verif.Handler

open Str (Text cstr)
open Hdl (Cell Handle)

/-! ## Paths -/

theorem isUrl_iff (s : Bytes) : isUrl s = true ↔ FileUrl s := by
  have h1 : ascii "file://" = [102, 105, 108, 101, 58, 47, 47] := by decide +kernel
  have h2 : ascii "file|//" = [102, 105, 108, 101, 124, 47, 47] := by decide +kernel
  simp only [isUrl, FileUrl, h1, h2, Bool.or_eq_true, beq_iff_eq, List.prefix_iff_eq_take]
  constructor
  · rintro (h | h)
    · exact .inl h.symm
    · exact .inr h.symm
  · rintro (h | h)
    · exact .inl h.symm
    · exact .inr h.symm

theorem text_ok {p : Bytes} (hp : Text p) (rest : List Cell) : text (p.map some ++ some 0 :: rest) = .ok p := by
  induction p with
  | nil => simp [text]
  | cons b p ih =>
    simp only [List.map_cons, List.cons_append, text, if_neg (hp b (by simp)), ih fun x hx => hp x (by simp [hx])]
    rfl

theorem len_ok {p : Bytes} (hp : Text p) (rest : List Cell) : len (p.map some ++ some 0 :: rest) = .ok p.length := by
  induction p with
  | nil => simp [len]
  | cons b p ih =>
    simp only [List.map_cons, List.cons_append, len, if_neg (hp b (by simp)), ih fun x hx => hp x (by simp [hx])]
    rfl

/-- Putting a string after another one. -/
theorem putAt_ok {h : Handle} {p s : Bytes} {pos : Nat} (h0 : h.offset = 0) (hpos : pos = p.length) (hb : h.block.take p.length = p.map some)
    (hl : p.length + s.length + 1 ≤ h.block.length) :
    ∃ h' rest, putAt h pos s = .ok h' ∧ h'.offset = 0 ∧ h'.block = (p ++ s).map some ++ some 0 :: rest ∧ h'.block.length = h.block.length := by
  subst hpos
  refine ⟨{ h with block := p.map some ++ (s.map some ++ [some 0]) ++ h.block.drop (p.length + (s.map some ++ [some 0]).length) },
    h.block.drop (p.length + (s.map some ++ [some 0]).length), ?_, h0, by simp, ?_⟩
  · unfold putAt
    rw [h0, Nat.zero_add, Hdl.blit_ok (by simp; omega), hb]
    rfl
  · simp
    omega

theorem setSize_first (k n : Nat) : ∃ h, Hdl.setSize ⟨List.replicate (k + 1) (some 0), false, k + 1, k + 1, 0⟩ w32(n) true = .ok h ∧
    h.offset = 0 ∧ w32(n) ≤ h.block.length ∧ ∃ r, h.block = some 0 :: r := by
  unfold Hdl.setSize
  by_cases hc : k + 1 ≥ w32(n)
  · rw [if_pos hc]
    exact ⟨_, rfl, rfl, by simpa using hc, List.replicate k (some 0), by rw [List.replicate_succ]⟩
  · rw [if_neg hc, if_pos rfl]
    refine ⟨_, rfl, rfl, ?_, ?_⟩
    · simp [Hdl.resize]
      omega
    · simp only [Bool.false_eq_true, if_false, Hdl.resize, Nat.add_zero]
      obtain ⟨m, hm⟩ : ∃ m, n % 4294967296 % 4294967296 = m + 1 := ⟨n % 4294967296 - 1, by omega⟩
      rw [hm, List.replicate_succ, List.take_succ_cons, List.cons_append]
      exact ⟨_, rfl⟩

theorem take_zero_map {α β : Type} (l : List β) (f : α → β) : l.take ([] : List α).length = ([] : List α).map f := by simp

/-- **C86.** The path of a data reference: what comes after `file://`, or the name after the directory of the movie. The buffers for it are large enough. -/
theorem c86_path (dir : Option Bytes) (r : Ref) (name rest : Bytes) (hf : r.flags ≠ 1) (hl : r.location = some (name ++ 0 :: rest)) (hn : Text name)
    (hd : ∀ d, dir = some d → Text d) (hs : (dir.getD []).length + name.length + 1 < 2 ^ 32) : pathName dir r = .ok (pathOf dir name) := by
  have hk : Hdl.newHandle 1024 true = .ok ⟨List.replicate (1023 + 1) (some 0), false, 1023 + 1, 1023 + 1, 0⟩ := by
    unfold Hdl.newHandle
    rfl
  unfold pathName
  rw [hk]
  generalize 1023 = k
  show (canonical dir r _).bind _ = _
  unfold canonical
  rw [if_neg hf, hl]
  simp only [Str.cstr_text hn]
  by_cases hu : isUrl name = true
  · have hu' := (isUrl_iff name).1 hu
    rw [if_pos hu]
    have hlen : 7 ≤ name.length := by
      rcases hu' with h | h
      · simpa [ascii] using h.length_le
      · simpa [ascii] using h.length_le
    obtain ⟨h1, e1, o1, l1, -⟩ := setSize_first k (name.length - 6)
    rw [e1]
    show (strcpy h1 _).bind _ = _
    unfold strcpy
    obtain ⟨h2, rest2, e2, o2, b2, -⟩ := putAt_ok (h := h1) (p := []) (s := name.drop 7) (pos := 0) o1 rfl (take_zero_map _ _)
      (by rw [List.length_drop]; simp only [List.length_nil]; omega)
    rw [e2]
    show text _ = _
    rw [o2, List.drop_zero, b2, text_ok (fun b hb => hn b (by
      have := List.mem_of_mem_drop (i := 7) (l := name) (a := b) (by simpa using hb)
      exact this)), pathOf, if_pos hu']
    rfl
  · have hu' : ¬ FileUrl name := fun h => hu ((isUrl_iff name).2 h)
    rw [if_neg hu, pathOf, if_neg hu']
    match dir, hd, hs with
    | none, _, hs =>
      obtain ⟨h1, e1, o1, l1, r1, b1⟩ := setSize_first k (name.length + 1)
      simp only [Option.getD_none, List.length_nil] at hs
      simp only [e1]
      show (strcat h1 _).bind _ = _
      unfold strcat
      rw [o1, List.drop_zero]
      have hl0 : len h1.block = .ok 0 := by rw [b1]; simp [len]
      rw [hl0]
      show (putAt h1 0 name).bind _ = _
      obtain ⟨h2, rest2, e2, o2, b2, -⟩ := putAt_ok (h := h1) (p := []) (s := name) (pos := 0) o1 rfl (take_zero_map _ _)
        (by simp only [List.length_nil]; omega)
      rw [e2]
      show text _ = _
      rw [o2, List.drop_zero, b2, List.nil_append, text_ok hn]
      rfl
    | some d, hd, hs =>
      have ht := hd d rfl
      simp only [Option.getD_some] at hs
      obtain ⟨h1, e1, o1, l1, -⟩ := setSize_first k (d.length + name.length + 1)
      simp only [e1]
      show ((strcpy h1 d).bind _).bind _ = _
      unfold strcpy
      obtain ⟨h2, rest2, e2, o2, b2, n2⟩ := putAt_ok (h := h1) (p := []) (s := d) (pos := 0) o1 rfl (take_zero_map _ _)
        (by simp only [List.length_nil]; omega)
      rw [e2]
      show (strcat h2 name).bind _ = _
      unfold strcat
      rw [List.nil_append] at b2
      have hl2 : len (h2.block.drop h2.offset) = .ok d.length := by
        rw [o2, List.drop_zero, b2, len_ok ht]
      rw [hl2]
      show (putAt h2 d.length name).bind _ = _
      obtain ⟨h3, rest3, e3, o3, b3, -⟩ := putAt_ok (h := h2) (p := d) (s := name) (pos := d.length) o2 rfl
        (by rw [b2, List.take_left' (by simp)]) (by omega)
      rw [e3]
      show text _ = _
      rw [o3, List.drop_zero, b3, text_ok (fun b hb => by
        rcases List.mem_append.1 hb with h | h
        · exact ht b h
        · exact hn b h)]
      rfl

theorem pathName_elsewhere {dir : Option Bytes} {r : Ref} {path : Bytes} (h : Elsewhere dir r path) (hd : ∀ d, dir = some d → Text d) :
    pathName dir r = .ok path := by
  obtain ⟨name, rest, h1, h2, h3, h4⟩ := h.location
  rw [c86_path dir r name rest h.flags h1 h2 hd h3, h4]

theorem openUrl_plain {fs : Fs} {path : Bytes} (h : ¬ FileUrl path) : openUrl fs path = openPath fs path := by
  unfold openUrl
  rw [if_neg (fun c => h ((isUrl_iff path).1 c))]

theorem openPath_small {fs : Fs} {path f : Bytes} (h : fs path = some f) (hs : f.length ≤ 0x7ffff000) :
    openPath fs path = .ok ⟨some f, f.length, parentOf path⟩ := by
  unfold openPath
  have : f.length % 4294967296 = f.length := Nat.mod_eq_of_lt (by omega)
  simp only [h, this]
  rw [if_neg (by omega), List.take_length]

theorem openPath_missing {fs : Fs} {path : Bytes} (h : fs path = none) : openPath fs path = .err .notFound := by
  unfold openPath
  rw [h]

/-! ## Handlers -/

theorem Opened.text {st : Option Mapping} {own dir : Option Bytes} (h : Opened st own dir) : ∀ d, dir = some d → Text d := by
  intro d hd
  match st, h with
  | none, h => rw [h.2] at hd; simp at hd
  | some m, h => exact h.2.2.2.2 d hd

theorem Opened.parent {st : Option Mapping} {own dir : Option Bytes} (h : Opened st own dir) : st.bind (·.parent) = dir := by
  match st, h with
  | none, h => rw [h.2]; rfl
  | some m, h => exact h.2.2.2.1

theorem shift32 {x : Nat} (h : x < 2 ^ 32) : x >>> 32 = 0 := by
  rw [Nat.shiftRight_eq_div_pow]
  exact Nat.div_eq_of_lt h

theorem copy_slice {m : Mapping} {f : Bytes} (h : m.data = some f) {off n : Nat} (ho : off < 2 ^ 32) (hf : off + n ≤ f.length) :
    m.copy off n = .ok (((f.drop off).take n).map some) := by
  unfold Mapping.copy
  simp only [shift32 ho, h]
  rw [if_neg (by simp), if_pos hf]

/-- A handler that has the bytes `f`. -/
def Gives (st : Option Mapping) (h : Hand) (f : Bytes) : Prop :=
  h.size st = .ok f.length ∧ ∀ off n, off < 2 ^ 32 → off + n ≤ f.length → h.copy st off n = .ok (((f.drop off).take n).map some)

theorem openRef_elsewhere {fs : Fs} {st : Option Mapping} {own dir : Option Bytes} (ho : Opened st own dir) {r : Ref} {path : Bytes}
    (he : Elsewhere dir r path) : openRef fs st r = (openPath fs path).bind fun m => .ok (.own m) := by
  unfold openRef
  rw [if_neg he.flags, ho.parent, pathName_elsewhere he ho.text, ← openUrl_plain he.plain]
  rfl

theorem create_keeps {fs : Fs} {st : Option Mapping} {own dir : Option Bytes} (ho : Opened st own dir) {r : Ref} {f : Bytes} (hk : Keeps fs own dir r f) :
    ∃ h, create fs st r = (h, .ok ()) ∧ Gives st h f := by
  cases hk with
  | merged m c flags mdat data fits eq =>
    refine ⟨.mdat (some m), ?_, ?_, ?_⟩
    · unfold create
      rw [if_pos ⟨flags, by simp [mdat]⟩, mdat]
    · simp only [Hand.size, eq, List.length_take]
      rw [Nat.min_eq_left fits]
    · intro off n h1 h2
      rw [eq, List.length_take, Nat.min_eq_left fits] at h2
      have hw : ¬ m.dataSize < (off + n) % 18446744073709551616 := Nat.not_lt.2 (Nat.le_trans (Nat.mod_le _ _) h2)
      have hc : Mdat.copyData m off n = .ok ((c.drop off).take n) := by
        unfold Mdat.copyData
        simp only [data]
        rw [if_neg hw, if_neg (by simp [shift32 h1]), if_pos (by omega)]
      simp only [Hand.copy, hc]
      show Res.ok _ = _
      rw [eq, List.drop_take, List.take_take, Nat.min_eq_left (by omega)]
  | inPlace flags mdat eq =>
    match st, ho with
    | none, ho => rw [ho.1] at eq; simp at eq
    | some m, ho =>
      obtain ⟨-, hd, hs, -, -⟩ := ho
      rw [eq] at hd hs
      refine ⟨.map .stream, ?_, ?_, ?_⟩
      · unfold create openRef
        rw [if_neg (by simp [mdat])]
        simp [flags]
      · simp only [Hand.size, hs]
        rfl
      · intro off n h1 h2
        exact copy_slice hd h1 h2
  | other path at_ file small =>
    refine ⟨.map (.own ⟨some f, f.length, parentOf path⟩), ?_, rfl, ?_⟩
    · unfold create
      rw [if_neg (fun c => at_.flags c.1), openRef_elsewhere ho at_, openPath_small file small]
      rfl
    · intro off n h1 h2
      exact copy_slice (m := ⟨some f, f.length, parentOf path⟩) rfl h1 h2

theorem create_missing {fs : Fs} {st : Option Mapping} {own dir : Option Bytes} (ho : Opened st own dir) {r : Ref} {path : Bytes}
    (he : Elsewhere dir r path) (hm : fs path = none) : create fs st r = (.map .nothing, .err .notFound) := by
  unfold create
  rw [if_neg (fun c => he.flags c.1), openRef_elsewhere ho he, openPath_missing hm]
  rfl

/-- What was created can be disposed of; the movie's file stays open. -/
theorem dispose_created {fs : Fs} {st : Option Mapping} {r : Ref} {h : Hand} (hc : create fs st r = (h, .ok ())) : dispose st h r = .ok st := by
  unfold create at hc
  unfold dispose
  by_cases h1 : r.flags = 1 ∧ r.mdat.isSome
  · rw [if_pos h1] at hc
    rw [if_pos h1, ← (Prod.mk.inj hc).1]
    rfl
  · rw [if_neg h1] at hc
    rw [if_neg h1]
    by_cases h2 : r.flags = 1
    · rw [if_pos h2]
    · rw [if_neg h2]
      unfold openRef at hc
      rw [if_neg h2] at hc
      cases hp : pathName (st.bind (·.parent)) r with
      | err e => rw [hp] at hc; simp [Res.bind] at hc
      | ub => rw [hp] at hc; simp [Res.bind] at hc
      | ok path =>
        rw [hp] at hc
        cases hm : openUrl fs path with
        | err e => simp [Res.bind, hm] at hc
        | ub => simp [Res.bind, hm] at hc
        | ok m =>
          simp [Res.bind, hm] at hc
          rw [← hc]
          rfl

/-! ## Tracks -/

/-- Between two calls: there is no handler, or that of the entry it is for. -/
def Fine (fs : Fs) (st : Option Mapping) (refs : List Ref) (s : Track) : Prop :=
  s.stream = st ∧ s.refs = some refs ∧
    (s.hand = none ∧ s.index = 0 ∨ ∃ r h, s.index ≠ 0 ∧ refs[s.index - 1]? = some r ∧ create fs st r = (h, .ok ()) ∧ s.hand = some h)

theorem fine_fresh (fs : Fs) (st : Option Mapping) (refs : List Ref) : Fine fs st refs (fresh st refs) := ⟨rfl, rfl, .inl ⟨rfl, rfl⟩⟩

theorem close_fine {fs : Fs} {st : Option Mapping} {refs : List Ref} {s : Track} (hs : Fine fs st refs s) :
    ∃ s', s.close = (s', .ok ()) ∧ Fine fs st refs s' ∧ s'.hand = none := by
  obtain ⟨h1, h2, h3⟩ := hs
  unfold Track.close
  rcases h3 with ⟨h3, h30⟩ | ⟨r, h, h4, h5, h6, h7⟩
  · simp only [h2, h3]
    exact ⟨s, rfl, ⟨h1, h2, .inl ⟨h3, h30⟩⟩, h3⟩
  · simp only [h2, h7, if_neg h4, h5, h1, dispose_created h6]
    exact ⟨_, rfl, ⟨rfl, rfl, .inl ⟨rfl, rfl⟩⟩, rfl⟩

theorem reopen_fine {fs : Fs} {st : Option Mapping} {refs : List Ref} {s : Track} (hs : Fine fs st refs s) {i : Nat} (hi : i ≠ 0) {r : Ref}
    (hr : refs[i - 1]? = some r) {h : Hand} (hc : create fs st r = (h, .ok ())) :
    ∃ s', s.reopen fs i = (s', .ok ()) ∧ Fine fs st refs s' ∧ s'.hand = some h := by
  obtain ⟨h1, h2, -⟩ := hs
  unfold Track.reopen
  simp only [h2, hr, h1, hc]
  exact ⟨_, rfl, ⟨rfl, rfl, .inr ⟨r, h, hi, hr, hc, rfl⟩⟩, rfl⟩

/-- Opening the data of an entry, whatever was open before. -/
theorem open_fine {fs : Fs} {st : Option Mapping} {refs : List Ref} {s : Track} (hs : Fine fs st refs s) {i : Nat} (hi : i ≠ 0) {r : Ref}
    (hr : refs[i - 1]? = some r) {h : Hand} (hc : create fs st r = (h, .ok ())) :
    ∃ s', s.open fs i = (s', .ok ()) ∧ Fine fs st refs s' ∧ s'.hand = some h := by
  unfold Track.open
  rw [if_neg hi]
  by_cases h1 : s.hand.isSome ∧ s.index = i
  · rw [if_pos h1]
    refine ⟨s, rfl, hs, ?_⟩
    rcases hs.2.2 with h2 | ⟨r', h', h4, h5, h6, h7⟩
    · simp [h2] at h1
    · rw [h1.2, hr] at h5
      cases h5
      rw [hc] at h6
      rw [h7, (Prod.mk.inj h6).1]
  · rw [if_neg h1]
    by_cases h2 : s.hand.isSome = true
    · rw [if_pos h2]
      obtain ⟨s', e, f, -⟩ := close_fine hs
      simp only [e]
      exact reopen_fine f hi hr hc
    · rw [if_neg h2]
      exact reopen_fine hs hi hr hc

/-- No entry with that number. -/
theorem open_unknown {fs : Fs} {st : Option Mapping} {refs : List Ref} {s : Track} (hs : Fine fs st refs s) {i : Nat} (hi : i = 0 ∨ refs.length < i) :
    ∃ s', s.open fs i = (s', .err .badParam) ∧ Fine fs st refs s' := by
  unfold Track.open
  by_cases h0 : i = 0
  · rw [if_pos h0]
    exact ⟨s, rfl, hs⟩
  rw [if_neg h0]
  have hi : refs.length < i := by omega
  have hn : refs[i - 1]? = none := List.getElem?_eq_none (by omega)
  have key : ∀ t, Fine fs st refs t → t.reopen fs i = (t, .err .badParam) := by
    intro t ht
    unfold Track.reopen
    simp only [ht.2.1, hn]
  by_cases h1 : s.hand.isSome ∧ s.index = i
  · exfalso
    rcases hs.2.2 with h2 | ⟨r', h', h4, h5, h6, h7⟩
    · simp [h2] at h1
    · rw [h1.2, hn] at h5
      simp at h5
  · rw [if_neg h1]
    by_cases h2 : s.hand.isSome = true
    · rw [if_pos h2]
      obtain ⟨s', e, f, -⟩ := close_fine hs
      simp only [e]
      exact ⟨s', key s' f, f⟩
    · rw [if_neg h2]
      exact ⟨s, key s hs, hs⟩

theorem preflight_elsewhere {fs : Fs} {st : Option Mapping} {own dir : Option Bytes} (ho : Opened st own dir) {r : Ref} {path : Bytes}
    (he : Elsewhere dir r path) : preflight fs st r = exists_ fs path := by
  unfold preflight
  rw [if_neg he.flags, ho.parent, pathName_elsewhere he ho.text]
  rfl

theorem step_says {fs : Fs} {st : Option Mapping} {own dir : Option Bytes} (ho : Opened st own dir) {refs : List Ref} {s : Track}
    (hs : Fine fs st refs s) {op : Op} {a : Res Bytes} (h : Says fs own dir refs op a) :
    (s.step fs op).2 = cells a ∧ Fine fs st refs (s.step fs op).1 := by
  cases h with
  | @read i off n r f hi hr hf small fits =>
    obtain ⟨h, hc, -, hg⟩ := create_keeps ho hf
    obtain ⟨s', e, f', hh⟩ := open_fine hs (by omega) hr hc
    simp only [Track.step, Track.read, e, hh]
    by_cases h0 : n > 0
    · rw [if_pos h0]
      exact ⟨by rw [f'.1]; exact hg off n small fits, f'⟩
    · rw [if_neg h0]
      have : n = 0 := by omega
      subst this
      exact ⟨by simp [cells], f'⟩
  | @unknown i off n hi =>
    obtain ⟨s', e, f'⟩ := open_unknown hs hi
    simp only [Track.step, Track.read, e]
    exact ⟨rfl, f'⟩
  | @beyond i off n r m hi hr flags mdat some_ small out =>
    have hc : create fs st r = (.mdat (some m), .ok ()) := by
      unfold create
      rw [if_pos ⟨flags, by simp [mdat]⟩, mdat]
    obtain ⟨s', e, f', hh⟩ := open_fine hs (by omega) hr hc
    simp only [Track.step, Track.read, e, hh]
    rw [if_pos some_]
    refine ⟨?_, f'⟩
    have : (off + n) % 18446744073709551616 = off + n := Nat.mod_eq_of_lt small
    simp only [Hand.copy, Mdat.copyData, this]
    cases m.data with
    | none => rfl
    | some c =>
      simp only [if_pos out]
      rfl
  | close =>
    obtain ⟨s', e, f', -⟩ := close_fine hs
    simp only [Track.step, e]
    exact ⟨rfl, f'⟩
  | @test i r f hi hr hf =>
    refine ⟨?_, hs⟩
    simp only [Track.step, Track.test]
    rw [if_neg (by omega)]
    by_cases h1 : s.hand.isSome ∧ s.index = i
    · rw [if_pos h1]; rfl
    · rw [if_neg h1]
      simp only [hs.2.1, hr, hs.1]
      cases hf with
      | merged m c flags mdat data fits eq => unfold preflight; rw [if_pos flags]; rfl
      | inPlace flags mdat eq => unfold preflight; rw [if_pos flags]; rfl
      | other path at_ file small =>
        rw [preflight_elsewhere ho at_, exists_, file]
        rfl
  | @missing i r path hi hr hp hf =>
    refine ⟨?_, hs⟩
    simp only [Track.step, Track.test]
    rw [if_neg (by omega)]
    by_cases h1 : s.hand.isSome ∧ s.index = i
    · exfalso
      rcases hs.2.2 with h2 | ⟨r', h', h4, h5, h6, h7⟩
      · simp [h2] at h1
      · rw [h1.2, hr] at h5
        cases h5
        rw [create_missing ho hp hf] at h6
        simp at h6
    · rw [if_neg h1]
      simp only [hs.2.1, hr, hs.1]
      rw [preflight_elsewhere ho hp, exists_, hf]
      rfl
  | @testUnknown i hi =>
    refine ⟨?_, hs⟩
    simp only [Track.step, Track.test]
    by_cases h0 : i = 0
    · rw [if_pos h0]; rfl
    rw [if_neg h0]
    have hn : refs[i - 1]? = none := List.getElem?_eq_none (by omega)
    by_cases h1 : s.hand.isSome ∧ s.index = i
    · exfalso
      rcases hs.2.2 with h2 | ⟨r', h', h4, h5, h6, h7⟩
      · simp [h2] at h1
      · rw [h1.2, hn] at h5
        simp at h5
    · rw [if_neg h1]
      simp only [hs.2.1, hn]
      rfl

/-- Where a list of calls leaves the track. -/
def Track.after (fs : Fs) : Track → List Op → Track
  | s, [] => s
  | s, op :: ops => Track.after fs (s.step fs op).1 ops

theorem run_append (fs : Fs) (l₁ l₂ : List Op) : ∀ s : Track, s.run fs (l₁ ++ l₂) = s.run fs l₁ ++ (s.after fs l₁).run fs l₂ := by
  induction l₁ with
  | nil => intro s; rfl
  | cons op l ih =>
    intro s
    simp only [List.cons_append, Track.run, Track.after, ih]

theorem run_says {fs : Fs} {st : Option Mapping} {own dir : Option Bytes} (ho : Opened st own dir) {refs : List Ref} (l : List (Op × Res Bytes)) :
    ∀ s, Fine fs st refs s → (∀ x ∈ l, Says fs own dir refs x.1 x.2) →
      s.run fs (l.map (·.1)) = l.map (fun x => cells x.2) ∧ Fine fs st refs (s.after fs (l.map (·.1))) := by
  induction l with
  | nil => intro s hs _; exact ⟨rfl, hs⟩
  | cons x l ih =>
    intro s hs h
    obtain ⟨h1, h2⟩ := step_says ho hs (h x (by simp))
    obtain ⟨h3, h4⟩ := ih _ h2 fun y hy => h y (by simp [hy])
    simp only [List.map_cons, Track.run, Track.after]
    exact ⟨by rw [h1, h3], h4⟩

/-- **C86.** Reading from a track whose data is in several files gives the bytes of the file each data reference is for, at the places asked for, in any order
and however often the reader goes from one file to another. (Missing: after reading from a file that is not there, see `c86_not_after_missing`.) -/
theorem c86_reads_partial (fs : Fs) (st : Option Mapping) (own dir : Option Bytes) (ho : Opened st own dir) (refs : List Ref) (l : List (Op × Res Bytes))
    (h : ∀ x ∈ l, Says fs own dir refs x.1 x.2) : (fresh st refs).run fs (l.map (·.1)) = l.map (fun x => cells x.2) :=
  (run_says ho l _ (fine_fresh fs st refs) h).1

/-- What a track answers once it is stuck. -/
def stuck : Op → Res (List Cell)
  | .read i _ _ => if i = 0 then .err .badParam else .err .invalidMedia
  | .close => .err .invalidMedia
  | .test _ => .err .invalidMedia

/-- A track with a handler that reads nowhere, for no entry. -/
def Stuck (refs : List Ref) (s : Track) : Prop := s.refs = some refs ∧ s.hand = some (.map .nothing) ∧ s.index = 0

theorem after_append (fs : Fs) (l₁ l₂ : List Op) : ∀ s : Track, s.after fs (l₁ ++ l₂) = (s.after fs l₁).after fs l₂ := by
  induction l₁ with
  | nil => intro s; rfl
  | cons op l ih =>
    intro s
    simp only [List.cons_append, Track.after, ih]

theorem reopen_missing {fs : Fs} {st : Option Mapping} {own dir : Option Bytes} (ho : Opened st own dir) {refs : List Ref} {s : Track}
    (hs : Fine fs st refs s) (hn : s.hand = none) {i : Nat} {r : Ref} {path : Bytes} (hr : refs[i - 1]? = some r) (hp : Elsewhere dir r path)
    (hm : fs path = none) : ∃ s', s.reopen fs i = (s', .err .notFound) ∧ Stuck refs s' := by
  obtain ⟨h1, h2, h3⟩ := hs
  rcases h3 with ⟨-, h3⟩ | ⟨r', h', h4, h5, h6, h7⟩
  · unfold Track.reopen
    simp only [h2, hr, h1, create_missing ho hp hm]
    exact ⟨_, rfl, rfl, rfl, h3⟩
  · rw [hn] at h7
    simp at h7

theorem read_missing {fs : Fs} {st : Option Mapping} {own dir : Option Bytes} (ho : Opened st own dir) {refs : List Ref} {s : Track}
    (hs : Fine fs st refs s) {i : Nat} {r : Ref} {path : Bytes} (hi : 0 < i) (hr : refs[i - 1]? = some r) (hp : Elsewhere dir r path)
    (hm : fs path = none) (off n : Nat) : ∃ s', s.read fs i off n = (s', .err .notFound) ∧ Stuck refs s' := by
  have key : ∃ s', s.open fs i = (s', .err .notFound) ∧ Stuck refs s' := by
    unfold Track.open
    rw [if_neg (by omega)]
    by_cases h1 : s.hand.isSome ∧ s.index = i
    · exfalso
      rcases hs.2.2 with ⟨h2, -⟩ | ⟨r', h', h4, h5, h6, h7⟩
      · simp [h2] at h1
      · rw [h1.2, hr] at h5
        cases h5
        rw [create_missing ho hp hm] at h6
        simp at h6
    · rw [if_neg h1]
      by_cases h2 : s.hand.isSome = true
      · rw [if_pos h2]
        obtain ⟨s', e, f, g⟩ := close_fine hs
        simp only [e]
        exact reopen_missing ho f g hr hp hm
      · rw [if_neg h2]
        exact reopen_missing ho hs (by simpa using h2) hr hp hm
  obtain ⟨s', e, f⟩ := key
  refine ⟨s', ?_, f⟩
  unfold Track.read
  simp only [e]

theorem run_stuck (fs : Fs) (refs : List Ref) (more : List Op) : ∀ s, Stuck refs s → (∀ op ∈ more, ∀ j, op ≠ .test j) →
    s.run fs more = more.map stuck := by
  induction more with
  | nil => intro s _ _; rfl
  | cons op more ih =>
    intro s hs h
    obtain ⟨h1, h2, h3⟩ := hs
    have hclose : s.close = (s, .err .invalidMedia) := by
      unfold Track.close
      simp only [h1, h2, h3, if_true]
    have key : s.step fs op = (s, stuck op) := by
      cases op with
      | read i off n =>
        by_cases h0 : i = 0
        · simp [Track.step, Track.read, Track.open, h0, stuck]
        · have : s.open fs i = (s, .err .invalidMedia) := by
            unfold Track.open
            rw [if_neg h0, if_neg (fun c => h0 (by rw [← c.2, h3])), if_pos (by simp [h2]), hclose]
          simp [Track.step, Track.read, this, h0, stuck]
      | close => simp only [Track.step, hclose, stuck, discard]
      | test j => exact absurd rfl (h _ (by simp) j)
    simp only [Track.run, key, List.map_cons]
    rw [ih s ⟨h1, h2, h3⟩ fun o ho => h o (by simp [ho])]

/-- **C86, the code.** After reading from a file that is not there, a track can no longer be read at all: not from its own file, not from others, not if the
file is there by then (`fs'`). Closing does not help. -/
theorem c86_not_after_missing (fs fs' : Fs) (st : Option Mapping) (own dir : Option Bytes) (ho : Opened st own dir) (refs : List Ref)
    (l : List (Op × Res Bytes)) (h : ∀ x ∈ l, Says fs own dir refs x.1 x.2) (i off n : Nat) (r : Ref) (path : Bytes) (hi : 0 < i)
    (hr : refs[i - 1]? = some r) (hp : Elsewhere dir r path) (hm : fs path = none) (more : List Op) (hmore : ∀ op ∈ more, ∀ j, op ≠ .test j) :
    (fresh st refs).run fs (l.map (·.1) ++ [.read i off n]) = l.map (fun x => cells x.2) ++ [.err .notFound] ∧
      ((fresh st refs).after fs (l.map (·.1) ++ [.read i off n])).run fs' more = more.map stuck := by
  obtain ⟨h1, h2⟩ := run_says ho l _ (fine_fresh fs st refs) h
  obtain ⟨s', h3, h4⟩ := read_missing ho h2 hi hr hp hm off n
  constructor
  · rw [run_append, h1]
    simp only [Track.run, Track.step, h3]
  · rw [after_append]
    simp only [Track.after, Track.step, h3]
    exact run_stuck fs' refs more s' h4 hmore

/-! ## Files -/

theorem before_none {c : UInt8} {s : Bytes} (h : c ∉ s) : before c s = none := by
  induction s with
  | nil => rfl
  | cons b s ih =>
    simp only [List.mem_cons, not_or] at h
    simp only [before, ih h.2]
    rw [if_neg (Ne.symm h.1)]

theorem before_last {c : UInt8} (d n : Bytes) (h : c ∉ n) : before c (d ++ c :: n) = some d := by
  induction d with
  | nil => simp [before, before_none h]
  | cons b d ih => simp only [List.cons_append, before, ih]

/-- **C86.** The directory of a movie is its path up to the last slash. -/
theorem c86_directory (d n : Bytes) (hd : 92 ∉ d) (hn : 92 ∉ n) (hs : 47 ∉ n) : parentOf (d ++ 47 :: n) = some (d ++ [47]) ∧ parentOf n = none := by
  unfold parentOf
  rw [before_none (c := 92) (s := d ++ 47 :: n) (by simp [hd, hn]), before_none hn, before_none hs]
  simp only [before_last d n hs, and_self]

/-- **C86, the code.** A backslash anywhere in the path is taken for the end of the directory, on Linux too, even if slashes come after it. -/
theorem c86_not_backslash (d n : Bytes) (hn : 92 ∉ n) : parentOf (d ++ 92 :: n) = some (d ++ [47]) := by
  unfold parentOf
  simp only [before_last d n hn]

/-- **C86.** Opening a movie in the directory `d`. -/
theorem c86_opened (fs : Fs) (d n f : Bytes) (hd : 92 ∉ d) (hn : 92 ∉ n) (hs : 47 ∉ n) (hp : ¬ FileUrl (d ++ 47 :: n)) (ht : Text d)
    (hf : fs (d ++ 47 :: n) = some f) (small : f.length ≤ 0x7ffff000) :
    ∃ m, openUrl fs (d ++ 47 :: n) = .ok m ∧ openUrl fs (ascii "file://" ++ (d ++ 47 :: n)) = .ok m ∧ Opened (some m) (some f) (some (d ++ [47])) := by
  refine ⟨⟨some f, f.length, some (d ++ [47])⟩, ?_, ?_, rfl, rfl, rfl, rfl, ?_⟩
  · rw [openUrl_plain hp, openPath_small hf small, (c86_directory d n hd hn hs).1]
  · unfold openUrl
    rw [if_pos ((isUrl_iff _).2 (.inl ⟨_, rfl⟩))]
    have : (ascii "file://" ++ (d ++ 47 :: n)).drop 7 = d ++ 47 :: n := by
      have h1 : ascii "file://" = [102, 105, 108, 101, 58, 47, 47] := by decide +kernel
      rw [h1]
      rfl
    rw [this, openPath_small hf small, (c86_directory d n hd hn hs).1]
  · intro x hx b hb
    cases hx
    rcases List.mem_append.1 hb with h | h
    · exact ht b h
    · simp only [List.mem_singleton] at h
      rw [h]
      decide

/-- **C86.** A movie `d/n` with samples in the file `name` beside it: the bytes are those of `d/name`. -/
theorem c86_beside (fs : Fs) (d n f name g : Bytes) (hd : 92 ∉ d) (hn : 92 ∉ n) (hs : 47 ∉ n) (hp : ¬ FileUrl (d ++ 47 :: n)) (ht : Text d)
    (hf : fs (d ++ 47 :: n) = some f) (small : f.length ≤ 0x7ffff000) (ht' : Text name) (hu : ¬ FileUrl name) (hp' : ¬ FileUrl (d ++ 47 :: name))
    (hl : d.length + name.length + 2 < 2 ^ 32) (hg : fs (d ++ 47 :: name) = some g) (small' : g.length ≤ 0x7ffff000) (refs : List Ref) (i off k : Nat)
    (hi : 0 < i) (hr : refs[i - 1]? = some ⟨0, some (name ++ [0]), none⟩) (ho : off < 2 ^ 32) (hk : off + k ≤ g.length) :
    ∃ m, openUrl fs (d ++ 47 :: n) = .ok m ∧ ((fresh (some m) refs).read fs i off k).2 = .ok (((g.drop off).take k).map some) := by
  obtain ⟨m, h1, -, h2⟩ := c86_opened fs d n f hd hn hs hp ht hf small
  refine ⟨m, h1, ?_⟩
  have he : pathOf (some (d ++ [47])) name = d ++ 47 :: name := by
    rw [pathOf, if_neg hu]
    simp
  have hk' : Keeps fs (some f) (some (d ++ [47])) ⟨0, some (name ++ [0]), none⟩ g :=
    .other (d ++ 47 :: name) ⟨Nat.zero_ne_one, ⟨name, [], rfl, ht', by simp; omega, he.symm⟩, hp'⟩ hg small'
  exact (step_says h2 (fine_fresh fs (some m) refs) (.read hi hr hk' ho hk)).1

/-- **C86, the code.** Reading past the end of another file, or of the movie's own file opened in place, is not noticed: memory is read outside of the
mapping. (In media data that is in memory it is an error, `Says.beyond`.) -/
theorem c86_not_checked (fs : Fs) (st : Option Mapping) (own dir : Option Bytes) (hopen : Opened st own dir) (refs : List Ref) (i off n : Nat) (r : Ref)
    (f : Bytes) (hi : 0 < i) (hr : refs[i - 1]? = some r) (hk : Keeps fs own dir r f) (hm : r.flags = 1 → r.mdat = none) (hn : 0 < n)
    (ho : off < 2 ^ 32) (out : f.length < off + n) : ((fresh st refs).read fs i off n).2 = .ub := by
  have key : ∀ h, create fs st r = (h, .ok ()) → h.copy st off n = .ub → ((fresh st refs).read fs i off n).2 = .ub := by
    intro h hc hb
    obtain ⟨s', e, f', hh⟩ := open_fine (fine_fresh fs st refs) (by omega) hr hc
    simp only [Track.read, e, hh]
    rw [if_pos hn, f'.1]
    exact hb
  have copy : ∀ m : Mapping, m.data = some f → m.copy off n = .ub := by
    intro m hd
    unfold Mapping.copy
    simp only [shift32 ho, hd]
    rw [if_neg (by simp), if_neg (by omega)]
  cases hk with
  | merged m c flags mdat data fits eq => rw [hm flags] at mdat; simp at mdat
  | inPlace flags mdat eq =>
    match st, hopen with
    | none, hopen => rw [hopen.1] at eq; simp at eq
    | some m, hopen =>
      refine key (.map .stream) ?_ ?_
      · unfold create openRef
        rw [if_neg (by simp [mdat])]
        simp [flags]
      · exact copy m (by rw [hopen.2.1, eq])
  | other path at_ file small =>
    refine key (.map (.own ⟨some f, f.length, parentOf path⟩)) ?_ (copy ⟨some f, f.length, parentOf path⟩ rfl)
    unfold create
    rw [if_neg (fun c => at_.flags c.1), openRef_elsewhere hopen at_, openPath_small file small]
    rfl

/-- **C86, the code.** An entry whose flags are not exactly 1 and that has no location, or one that does not end, is not noticed either: `strncmp` of NULL, or
`strlen` past the end. Such entries come from files: the location is what is in the box, and there is none in a box of 12 bytes. -/
theorem c86_not_without_location (fs : Fs) (st : Option Mapping) (refs : List Ref) (i off n : Nat) (r : Ref) (hi : 0 < i) (hr : refs[i - 1]? = some r)
    (hf : r.flags ≠ 1) (hl : ∀ b, r.location = some b → Text b) :
    ((fresh st refs).read fs i off n).2 = .ub ∧ (fresh st refs).test fs i = .ub := by
  have hc : ∀ p h, canonical p r h = .ub := by
    intro p h
    unfold canonical
    rw [if_neg hf]
    match hb : r.location with
    | none => rfl
    | some b =>
      simp only [Str.cstr_open (hl b hb)]
  have hp : ∀ p, pathName p r = .ub := by
    intro p
    unfold pathName
    simp only [hc]
    rfl
  constructor
  · have hcr : create fs st r = (.map .nothing, .ub) := by
      unfold create openRef
      rw [if_neg (fun c => hf c.1), if_neg hf, hp]
      rfl
    have h0 : i ≠ 0 := by omega
    simp [Track.read, Track.open, Track.reopen, fresh, h0, hr, hcr]
  · unfold Track.test preflight
    rw [if_neg (by omega), if_neg (by simp [fresh])]
    simp only [fresh, hr]
    rw [if_neg hf, hp]
    rfl

/-- **C86, the code.** Files of more than 0x7ffff000 bytes, and less than 4 GiB, cannot be opened: `read` does not give that many at once. -/
theorem c86_not_two_gigabytes (fs : Fs) (path f : Bytes) (hf : fs path = some f) (h1 : 0x7ffff000 < f.length) (h2 : f.length < 2 ^ 32) :
    openPath fs path = .err .ioErr := by
  unfold openPath
  have : f.length % 4294967296 = f.length := Nat.mod_eq_of_lt h2
  simp only [hf, this]
  rw [if_pos (by omega)]

/-- **C86, the code.** Larger ones are opened again, but only the first bytes are read, as many as the size is modulo 4 GiB, and reading the others
is outside of memory, though the size of the mapping is that of the file. -/
theorem c86_not_four_gigabytes (fs : Fs) (path f : Bytes) (k : Nat) (hf : fs path = some f) (h1 : f.length = 2 ^ 32 + k) (h2 : k ≤ 0x7ffff000) :
    ∃ m, openPath fs path = .ok m ∧ m.size64 = f.length ∧ ∀ off n, off < 2 ^ 32 → m.copy off n = if off + n ≤ k then .ok (((f.drop off).take n).map some) else .ub := by
  refine ⟨⟨some (f.take k), f.length, parentOf path⟩, ?_, rfl, ?_⟩
  · unfold openPath
    have : f.length % 4294967296 = k := by omega
    simp only [hf, this]
    rw [if_neg (by omega)]
  · intro off n ho
    unfold Mapping.copy
    simp only [shift32 ho]
    rw [if_neg (by simp), List.length_take, Nat.min_eq_left (by omega)]
    by_cases hc : off + n ≤ k
    · rw [if_pos hc, if_pos hc, List.drop_take, List.take_take, Nat.min_eq_left (by omega)]
    · rw [if_neg hc, if_neg hc]

/-- **C86, the code.** Bytes from 4 GiB on are refused, in any file. -/
theorem c86_not_far (m : Mapping) (off n : Nat) (ho : 2 ^ 32 ≤ off) : m.copy off n = .err .notImplemented := by
  unfold Mapping.copy
  rw [if_pos]
  rw [Nat.shiftRight_eq_div_pow]
  have : 1 ≤ off / 2 ^ 32 := (Nat.le_div_iff_mul_le (by decide)).2 (by omega)
  omega

/-- **C86, the code.** The start of a URL is taken off twice when a file is opened, but once when it is looked for: with the location `file://file://x`, the
file that is tested is not the one that is opened. -/
theorem c86_not_tested (fs : Fs) (st : Option Mapping) (own dir : Option Bytes) (hopen : Opened st own dir) (x f : Bytes) (hx : Text x)
    (hl : (dir.getD []).length + x.length + 15 < 2 ^ 32) (hf : fs x = some f) (small : f.length ≤ 0x7ffff000) (hm : fs (ascii "file://" ++ x) = none) :
    let r : Ref := ⟨0, some (ascii "file://" ++ (ascii "file://" ++ x) ++ [0]), none⟩
    preflight fs st r = .err .notFound ∧ create fs st r = (.map (.own ⟨some f, f.length, parentOf x⟩), .ok ()) := by
  intro r
  have h1 : ascii "file://" = [102, 105, 108, 101, 58, 47, 47] := by decide +kernel
  have hp : pathName (st.bind (·.parent)) r = .ok (ascii "file://" ++ x) := by
    rw [hopen.parent, c86_path dir r (ascii "file://" ++ (ascii "file://" ++ x)) [] Nat.zero_ne_one rfl ?_ hopen.text (by simp [h1]; omega)]
    · rw [pathOf, if_pos (.inl ⟨_, rfl⟩), h1]
      rfl
    · intro b hb
      rw [h1] at hb
      simp only [List.mem_append, or_self_left] at hb
      rcases hb with h | h
      · intro hb0
        rw [hb0] at h
        exact absurd h (by decide)
      · exact hx b h
  constructor
  · unfold preflight
    rw [if_neg Nat.zero_ne_one, hp]
    show exists_ fs _ = _
    rw [exists_, hm]
    rfl
  · unfold create openRef
    rw [if_neg (fun c => Nat.zero_ne_one c.1), if_neg Nat.zero_ne_one, hp]
    have : openUrl fs (ascii "file://" ++ x) = .ok ⟨some f, f.length, parentOf x⟩ := by
      unfold openUrl
      rw [if_pos ((isUrl_iff _).2 (.inl ⟨_, rfl⟩))]
      have : (ascii "file://" ++ x).drop 7 = x := by rw [h1]; rfl
      rw [this, openPath_small hf small]
    simp only [Res.bind, this]

/-! ## Items -/

/-- A meta box just opened. -/
def freshBox (st : Option Mapping) (refs : Option (List Ref)) (mdat : Option Mdat.T) : Box := ⟨st, refs, mdat, none, none⟩

/-- Between two calls: a handler for nothing, or that of an entry. -/
def FineBox (fs : Fs) (s0 s : Box) : Prop := (∃ x, s = { s0 with hand := x }) ∨ ∃ i, s0.open fs i = (s, .ok ())

theorem box_open_cases (fs : Fs) (st : Option Mapping) (refs : Option (List Ref)) (mdat : Option Mdat.T) (i : Nat) :
    (∃ h, (freshBox st refs mdat).open fs i = (⟨st, refs, mdat, some h, some i⟩, .ok ()) ∧
      (i = 0 ∧ h = .mdat mdat ∨ i ≠ 0 ∧ ∃ l r, refs = some l ∧ l[i - 1]? = some r ∧ create fs st r = (h, .ok ()))) ∨
    ∃ x e, (freshBox st refs mdat).open fs i = (⟨st, refs, mdat, x, none⟩, e) ∧ e ≠ .ok () := by
  unfold Box.open freshBox
  by_cases h0 : i = 0
  · rw [if_pos h0]
    exact .inl ⟨.mdat mdat, by rw [h0], .inl ⟨h0, rfl⟩⟩
  · rw [if_neg h0]
    match refs with
    | none => exact .inr ⟨none, _, rfl, by simp⟩
    | some l =>
      match hr : l[i - 1]? with
      | none =>
        simp only [hr]
        exact .inr ⟨none, _, rfl, by simp⟩
      | some r =>
        simp only [hr]
        match hc : create fs st r with
        | (h, .ok ()) => exact .inl ⟨h, rfl, .inr ⟨h0, l, r, rfl, hr, hc⟩⟩
        | (h, .err e) => exact .inr ⟨some h, _, rfl, by simp⟩
        | (h, .ub) => exact .inr ⟨some h, _, rfl, by simp⟩

theorem box_close {fs : Fs} {st : Option Mapping} {refs : Option (List Ref)} {mdat : Option Mdat.T} {s : Box} (hs : FineBox fs (freshBox st refs mdat) s) :
    s.close = (freshBox st refs mdat, .ok ()) := by
  rcases hs with ⟨x, rfl⟩ | ⟨i, hi⟩
  · cases x <;> rfl
  · rcases box_open_cases fs st refs mdat i with ⟨h, e, hh⟩ | ⟨x, e, e', ne⟩
    · rw [e] at hi
      rw [← (Prod.mk.inj hi).1]
      rcases hh with ⟨h0, hm⟩ | ⟨h0, l, r, hl, hr, hc⟩
      · subst h0 hm
        rfl
      · unfold Box.close
        simp only [if_neg h0, hl, hr, dispose_created hc]
        rfl
    · rw [e'] at hi
      exact absurd (Prod.mk.inj hi).2 ne

theorem box_switch (fs : Fs) (st : Option Mapping) (refs : Option (List Ref)) (mdat : Option Mdat.T) (i : Nat) :
    (freshBox st refs mdat).switch fs i = (freshBox st refs mdat).open fs i := by
  unfold Box.switch
  rw [if_neg (by simp [freshBox]), if_neg (by simp [freshBox])]

theorem box_use {fs : Fs} {st : Option Mapping} {refs : Option (List Ref)} {mdat : Option Mdat.T} {s : Box} (hs : FineBox fs (freshBox st refs mdat) s)
    (i : Nat) : s.use fs i = (freshBox st refs mdat).use fs i := by
  unfold Box.use
  have h1 : s.switch fs i = (freshBox st refs mdat).open fs i := by
    unfold Box.switch
    by_cases hi : s.index = some i
    · rw [if_pos hi]
      rcases hs with ⟨x, rfl⟩ | ⟨j, hj⟩
      · simp [freshBox] at hi
      · rcases box_open_cases fs st refs mdat j with ⟨h, e, -⟩ | ⟨x, e, e', ne⟩
        · have : j = i := by
            rw [hj] at e
            rw [(Prod.mk.inj e).1] at hi
            simpa using hi
          rw [← this, hj]
        · rw [e'] at hj
          exact absurd (Prod.mk.inj hj).2 ne
    · rw [if_neg hi]
      by_cases hh : s.hand.isSome = true
      · rw [if_pos hh, box_close hs]
      · rw [if_neg hh]
        rcases hs with ⟨x, rfl⟩ | ⟨j, hj⟩
        · cases x with
          | none => rfl
          | some h => simp at hh
        · rcases box_open_cases fs st refs mdat j with ⟨h, e, -⟩ | ⟨x, e, e', ne⟩
          · rw [hj] at e
            rw [(Prod.mk.inj e).1] at hh
            simp at hh
          · rw [e'] at hj
            exact absurd (Prod.mk.inj hj).2 ne
  rw [h1, box_switch]

theorem box_use_fine (fs : Fs) (st : Option Mapping) (refs : Option (List Ref)) (mdat : Option Mdat.T) (i : Nat) :
    FineBox fs (freshBox st refs mdat) ((freshBox st refs mdat).use fs i).1 := by
  unfold Box.use
  rw [box_switch]
  rcases box_open_cases fs st refs mdat i with ⟨h, e, -⟩ | ⟨x, e, e', ne⟩
  · simp only [e]
    exact .inr ⟨i, e⟩
  · simp only [e']
    match e, ne with
    | .err e, _ => exact .inl ⟨x, rfl⟩
    | .ub, _ => exact .inl ⟨x, rfl⟩

theorem box_item {fs : Fs} {st : Option Mapping} {refs : Option (List Ref)} {mdat : Option Mdat.T} {s : Box} (hs : FineBox fs (freshBox st refs mdat) s)
    (a : Iloc.Item) : s.item fs a = (freshBox st refs mdat).item fs a ∧ FineBox fs (freshBox st refs mdat) (s.item fs a).1 := by
  have h1 : s.item fs a = (freshBox st refs mdat).item fs a := by
    unfold Box.item
    rw [box_use hs]
  refine ⟨h1, ?_⟩
  rw [h1]
  have h2 := box_use_fine fs st refs mdat a.dref
  unfold Box.item
  match hu : (freshBox st refs mdat).use fs a.dref with
  | (s', .ok h) => rw [hu] at h2; exact h2
  | (s', .err e) => rw [hu] at h2; exact h2
  | (s', .ub) => rw [hu] at h2; exact h2

theorem box_run (fs : Fs) (st : Option Mapping) (refs : Option (List Ref)) (mdat : Option Mdat.T) (l : List Iloc.Item) :
    ∀ s, FineBox fs (freshBox st refs mdat) s → s.run fs l = l.map fun a => ((freshBox st refs mdat).item fs a).2 := by
  induction l with
  | nil => intro s _; rfl
  | cons a l ih =>
    intro s hs
    obtain ⟨h1, h2⟩ := box_item hs a
    simp only [Box.run, List.map_cons]
    rw [ih _ h2, h1]

/-- **C86.** The data of an item does not depend on which items were read before it, from which files, and whether that succeeded: reading items one after
the other gives for each what it gives by itself. (For tracks this is not so, `c86_not_after_missing`.) -/
theorem c86_items_alone (fs : Fs) (st : Option Mapping) (refs : Option (List Ref)) (mdat : Option Mdat.T) (l : List Iloc.Item) :
    (freshBox st refs mdat).run fs l = l.map fun a => ((freshBox st refs mdat).item fs a).2 :=
  box_run fs st refs mdat l _ (.inl ⟨none, rfl⟩)

/-- Extents with a length, inside of the file. -/
def Inside (f : Bytes) (base : Nat) (es : List Iloc.Extent) : Prop :=
  ∀ e ∈ es, 0 < e.length ∧ e.length < 2 ^ 32 ∧ base + e.offset < 2 ^ 32 ∧ base + e.offset + e.length ≤ f.length

theorem extents_step {st : Option Mapping} {h : Hand} {f : Bytes} (hg : Gives st h f) {base : Nat} {e : Iloc.Extent} {es : List Iloc.Extent} (first : Bool)
    (h1 : 0 < e.length) (h2 : e.length < 2 ^ 32) (h3 : base + e.offset < 2 ^ 32) (h4 : base + e.offset + e.length ≤ f.length) {acc : List Cell}
    (hl : acc.length + e.length < 2 ^ 32) : extents st h first base acc (e :: es) =
      extents st h false (if first then w64(base + (18446744073709551616 - e.offset)) else base)
        (acc ++ ((f.drop (base + e.offset)).take e.length).map some) es := by
  rw [extents, if_neg (by omega), if_neg (by simp [shift32 h2])]
  show (if acc.length + e.length ≥ 4294967296 then Res.ub else _) = _
  have : (e.offset + base) % 18446744073709551616 = base + e.offset := by omega
  rw [if_neg (by omega), this, hg.2 _ _ h3 h4]
  rfl

theorem extents_ok {st : Option Mapping} {h : Hand} {f : Bytes} (hg : Gives st h f) (base : Nat) (es : List Iloc.Extent) : ∀ acc, Inside f base es →
    acc.length + (es.map (·.length)).sum < 2 ^ 32 → extents st h false base acc es = .ok (acc ++ (pieces f base es).map some) := by
  induction es with
  | nil => intro acc _ _; simp [extents, pieces]
  | cons e es ih =>
    intro acc hi hl
    obtain ⟨h1, h2, h3, h4⟩ := hi e (by simp)
    simp only [List.map_cons, List.sum_cons] at hl
    rw [extents_step hg false h1 h2 h3 h4 (by omega)]
    simp only [Bool.false_eq_true, if_false]
    rw [ih _ (fun x hx => hi x (by simp [hx])) (by
      simp only [List.length_append, List.length_map, List.length_take, List.length_drop]
      omega)]
    simp [pieces]

/-- The data references of a meta box and an entry of them. -/
theorem box_use_keeps {fs : Fs} {st : Option Mapping} {own dir : Option Bytes} (ho : Opened st own dir) {refs : List Ref} (mdat : Option Mdat.T) {i : Nat}
    {r : Ref} {f : Bytes} (hi : 0 < i) (hr : refs[i - 1]? = some r) (hk : Keeps fs own dir r f) :
    ∃ h, (freshBox st (some refs) mdat).use fs i = (⟨st, some refs, mdat, some h, some i⟩, .ok h) ∧ Gives st h f := by
  obtain ⟨h, hc, hg⟩ := create_keeps ho hk
  refine ⟨h, ?_, hg⟩
  have : (freshBox st (some refs) mdat).open fs i = (⟨st, some refs, mdat, some h, some i⟩, .ok ()) := by
    unfold Box.open freshBox
    rw [if_neg (by omega)]
    simp only [hr, hc]
  unfold Box.use
  rw [box_switch, this]

/-- **C86.** An item in a file: its data are the pieces of the file that its extents are for. (Missing: several extents of which the first does not start
at the base, as `c84_not_two_places`.) -/
theorem c86_items_partial (fs : Fs) (st : Option Mapping) (own dir : Option Bytes) (ho : Opened st own dir) (refs : List Ref) (mdat : Option Mdat.T)
    (a : Iloc.Item) (r : Ref) (f : Bytes) (hi : 0 < a.dref) (hr : refs[a.dref - 1]? = some r) (hk : Keeps fs own dir r f) (es : List Iloc.Extent)
    (he : a.extents = some es) (hin : Inside f a.base es) (hl : (es.map (·.length)).sum < 2 ^ 32) (hfirst : es.length ≤ 1 ∨ ∀ e, es.head? = some e → e.offset = 0) :
    ((freshBox st (some refs) mdat).item fs a).2 = .ok ((pieces f a.base es).map some) := by
  obtain ⟨h, hu, hg⟩ := box_use_keeps ho mdat hi hr hk
  unfold Box.item
  simp only [hu, he, Option.getD_some]
  match es, hin, hl, hfirst with
  | [], _, _, _ => simp [extents, pieces]
  | e :: es, hin, hl, hfirst =>
    obtain ⟨h1, h2, h3, h4⟩ := hin e (by simp)
    simp only [List.map_cons, List.sum_cons] at hl
    rw [extents_step hg true h1 h2 h3 h4 (by simp; omega)]
    simp only [if_true]
    match es, hin, hl, hfirst with
    | [], _, _, _ => simp [extents, pieces]
    | e' :: es, hin, hl, hfirst =>
      have h0 : e.offset = 0 := by
        rcases hfirst with h | h
        · simp at h
        · exact h e rfl
      have hb : (a.base + (18446744073709551616 - e.offset)) % 18446744073709551616 = a.base := by
        rw [h0]
        omega
      rw [hb, extents_ok hg a.base (e' :: es) _ (fun x hx => hin x (by simp [hx])) (by
        simp only [List.map_cons, List.sum_cons] at hl
        simp only [List.nil_append, List.length_map, List.length_take, List.length_drop, List.map_cons, List.sum_cons]
        omega)]
      simp [pieces]

/-- **C86.** An item that is a whole file: one extent without a length. -/
theorem c86_whole_file (fs : Fs) (st : Option Mapping) (own dir : Option Bytes) (ho : Opened st own dir) (refs : List Ref) (mdat : Option Mdat.T)
    (a : Iloc.Item) (r : Ref) (f : Bytes) (hi : 0 < a.dref) (hr : refs[a.dref - 1]? = some r) (hk : Keeps fs own dir r f) (hs : f.length < 2 ^ 32)
    (x : Nat) (he : a.extents = some [⟨x, 0, 0⟩]) (hb : a.base = 0) :
    ((freshBox st (some refs) mdat).item fs a).2 = .ok (f.map some) := by
  obtain ⟨h, hu, hg⟩ := box_use_keeps ho mdat hi hr hk
  unfold Box.item
  simp only [hu, he, Option.getD_some, hb]
  rw [extents, if_pos rfl, hg.1]
  simp only [Res.bind, shift32 hs]
  rw [if_neg (by simp), if_neg (by simp)]
  simp only [List.length_nil, Nat.zero_add]
  rw [if_neg (by omega), hg.2 _ _ (by decide) (by simp)]
  simp [extents]

/-- **C86, the code.** An item that is the rest of a file, from a base on: as many bytes are copied as there are in the whole file, which is read past its end.
(Not in media data that is in memory, where it is an error.) -/
theorem c86_not_rest_of_file (fs : Fs) (st : Option Mapping) (own dir : Option Bytes) (ho : Opened st own dir) (refs : List Ref) (mdat : Option Mdat.T)
    (a : Iloc.Item) (r : Ref) (f path : Bytes) (hi : 0 < a.dref) (hr : refs[a.dref - 1]? = some r) (hp : Elsewhere dir r path) (hf : fs path = some f)
    (small : f.length ≤ 0x7ffff000) (x : Nat) (es : List Iloc.Extent) (he : a.extents = some (⟨x, 0, 0⟩ :: es)) (hb : 0 < a.base) (hb' : a.base < 2 ^ 32) :
    ((freshBox st (some refs) mdat).item fs a).2 = .ub := by
  have hc : create fs st r = (.map (.own ⟨some f, f.length, parentOf path⟩), .ok ()) := by
    unfold create
    rw [if_neg (fun c => hp.flags c.1), openRef_elsewhere ho hp, openPath_small hf small]
    rfl
  have hu : (freshBox st (some refs) mdat).use fs a.dref =
      (⟨st, some refs, mdat, some (.map (.own ⟨some f, f.length, parentOf path⟩)), some a.dref⟩, .ok (.map (.own ⟨some f, f.length, parentOf path⟩))) := by
    unfold Box.use
    rw [box_switch]
    unfold Box.open freshBox
    rw [if_neg (by omega)]
    simp only [hr, hc]
  unfold Box.item
  simp only [hu, he, Option.getD_some]
  have hs : f.length < 2 ^ 32 := by omega
  rw [extents, if_pos rfl]
  simp only [Hand.size, Res.bind, shift32 hs]
  rw [if_neg (by simp), if_neg (by simp)]
  simp only [List.length_nil, Nat.zero_add]
  have : a.base % 18446744073709551616 = a.base := by omega
  rw [if_neg (by omega), this]
  have hcopy : (Hand.map (.own ⟨some f, f.length, parentOf path⟩)).copy st a.base f.length = .ub := by
    simp only [Hand.copy, Mapping.copy, shift32 hb']
    rw [if_neg (by simp), if_neg (by omega)]
  rw [hcopy]

/-- **C86.** An item in a file that is not there. -/
theorem c86_items_missing (fs : Fs) (st : Option Mapping) (own dir : Option Bytes) (ho : Opened st own dir) (refs : List Ref) (mdat : Option Mdat.T)
    (a : Iloc.Item) (r : Ref) (path : Bytes) (hi : 0 < a.dref) (hr : refs[a.dref - 1]? = some r) (hp : Elsewhere dir r path) (hf : fs path = none) :
    ((freshBox st (some refs) mdat).item fs a).2 = .err .notFound := by
  have hu : (freshBox st (some refs) mdat).use fs a.dref = (⟨st, some refs, mdat, some (.map .nothing), none⟩, .err .notFound) := by
    unfold Box.use
    rw [box_switch]
    unfold Box.open freshBox
    rw [if_neg (by omega)]
    simp only [hr, create_missing ho hp hf]
  unfold Box.item
  simp only [hu]

/-! ## Examples -/

/-- A movie `d/m` opened in place, with samples in itself, in `d/a`, in `/b`, and in `d/gone`, which is not there. -/
def sampleFs : Fs := fun p =>
  if p = ascii "d/m" then some [1, 2, 3, 4, 5, 6]
  else if p = ascii "d/a" then some [11, 12, 13]
  else if p = ascii "/b" then some [21, 22]
  else none

def sampleRefs : List Ref :=
  [⟨1, none, none⟩, ⟨0, some (ascii "a" ++ [0]), none⟩, ⟨0, some (ascii "file:///b" ++ [0]), none⟩, ⟨0, some (ascii "gone" ++ [0]), none⟩,
    ⟨1, none, some ⟨some [31, 32, 33, 0], 3, 4, 8⟩⟩]

def sampleStream : Mapping := ⟨some [1, 2, 3, 4, 5, 6], 6, some (ascii "d/")⟩

theorem sample_open : openUrl sampleFs (ascii "d/m") = .ok sampleStream := by decide +kernel

example : Opened (some sampleStream) (some [1, 2, 3, 4, 5, 6]) (some (ascii "d/")) :=
  ⟨rfl, rfl, rfl, rfl, fun d hd => by
    have h : ascii "d/" = [100, 47] := by decide +kernel
    rw [h] at hd
    cases hd
    unfold Text
    decide⟩

theorem sample_a : Elsewhere (some (ascii "d/")) ⟨0, some (ascii "a" ++ [0]), none⟩ (ascii "d/a") where
  flags := Nat.zero_ne_one
  location := ⟨ascii "a", [], rfl, by unfold Text; decide +kernel, by decide +kernel, by decide +kernel⟩
  plain := by decide +kernel

theorem sample_b : Elsewhere (some (ascii "d/")) ⟨0, some (ascii "file:///b" ++ [0]), none⟩ (ascii "/b") where
  flags := Nat.zero_ne_one
  location := ⟨ascii "file:///b", [], rfl, by unfold Text; decide +kernel, by decide +kernel, by decide +kernel⟩
  plain := by decide +kernel

theorem sample_gone : Elsewhere (some (ascii "d/")) ⟨0, some (ascii "gone" ++ [0]), none⟩ (ascii "d/gone") where
  flags := Nat.zero_ne_one
  location := ⟨ascii "gone", [], rfl, by unfold Text; decide +kernel, by decide +kernel, by decide +kernel⟩
  plain := by decide +kernel

/-- Calls with the answers that they have to get, as in `c86_reads_partial`. -/
def sampleCalls : List (Op × Res Bytes) :=
  [(.read 2 1 2, .ok [12, 13]), (.read 1 0 3, .ok [1, 2, 3]), (.read 3 0 1, .ok [21]), (.test 4, .err .notFound), (.read 1 4 2, .ok [5, 6]),
    (.read 5 1 2, .ok [32, 33]), (.read 5 1 3, .err .badParam), (.close, .ok []), (.read 9 0 1, .err .badParam), (.read 2 0 1, .ok [11])]

example : ∀ x ∈ sampleCalls, Says sampleFs (some [1, 2, 3, 4, 5, 6]) (some (ascii "d/")) sampleRefs x.1 x.2 := by
  have ka : Keeps sampleFs (some [1, 2, 3, 4, 5, 6]) (some (ascii "d/")) ⟨0, some (ascii "a" ++ [0]), none⟩ [11, 12, 13] :=
    .other _ sample_a (by decide +kernel) (by decide)
  have kb : Keeps sampleFs (some [1, 2, 3, 4, 5, 6]) (some (ascii "d/")) ⟨0, some (ascii "file:///b" ++ [0]), none⟩ [21, 22] :=
    .other _ sample_b (by decide +kernel) (by decide)
  have km : Keeps sampleFs (some [1, 2, 3, 4, 5, 6]) (some (ascii "d/")) ⟨1, none, none⟩ [1, 2, 3, 4, 5, 6] := .inPlace rfl rfl rfl
  have kd : Keeps sampleFs (some [1, 2, 3, 4, 5, 6]) (some (ascii "d/")) ⟨1, none, some ⟨some [31, 32, 33, 0], 3, 4, 8⟩⟩ [31, 32, 33] :=
    .merged ⟨some [31, 32, 33, 0], 3, 4, 8⟩ _ rfl rfl rfl (by decide) rfl
  intro x hx
  simp only [sampleCalls, List.mem_cons, List.not_mem_nil, or_false] at hx
  rcases hx with h | h | h | h | h | h | h | h | h | h <;> subst h
  · exact .read (by decide) rfl ka (by decide) (by decide)
  · exact .read (by decide) rfl km (by decide) (by decide)
  · exact .read (by decide) rfl kb (by decide) (by decide)
  · exact .missing (by decide) rfl sample_gone (by decide +kernel)
  · exact .read (by decide) rfl km (by decide) (by decide)
  · exact .read (by decide) rfl kd (by decide) (by decide)
  · exact .beyond (by decide) rfl rfl rfl (by decide) (by decide) (by decide)
  · exact .close
  · exact .unknown (by decide)
  · exact .read (by decide) rfl ka (by decide) (by decide)

example : (fresh (some sampleStream) sampleRefs).run sampleFs (sampleCalls.map (·.1)) = sampleCalls.map fun x => cells x.2 := by decide +kernel

/-- After reading from `d/gone`. -/
example : (fresh (some sampleStream) sampleRefs).run sampleFs [.read 2 1 2, .read 4 0 1, .read 2 1 2, .close, .read 1 0 1] =
    [.ok [some 12, some 13], .err .notFound, .err .invalidMedia, .err .invalidMedia, .err .invalidMedia] := by decide +kernel

/-- The same with items. -/
example : (freshBox (some sampleStream) (some sampleRefs) none).run sampleFs
    [⟨1, 0, 2, 1, some [⟨0, 0, 2⟩]⟩, ⟨2, 0, 4, 0, some [⟨0, 0, 0⟩]⟩, ⟨3, 0, 3, 0, some [⟨0, 0, 0⟩]⟩, ⟨4, 0, 1, 2, some [⟨0, 0, 1⟩, ⟨0, 2, 2⟩]⟩, ⟨5, 0, 2, 1, some [⟨0, 0, 0⟩]⟩] =
    [.ok [some 12, some 13], .err .notFound, .ok [some 21, some 22], .ok [some 3, some 5, some 6], .ub] := by decide +kernel

/-- A box of 12 bytes with other flags than 1 has no location. -/
example : Str.Url.parse ⟨12, Str.typeUrl, [], 0, 8⟩ ⟨[0, 0, 0, 3], 8⟩ = .ok ((⟨0, 3⟩, ⟨none, 0⟩), ⟨[], 12⟩) := by decide +kernel

/-- And in one without a NUL the location does not end. -/
example : Str.Url.parse ⟨214, Str.typeUrl, [], 0, 8⟩ ⟨[0, 0, 0, 0] ++ List.replicate 202 97, 8⟩ =
    .ok ((⟨0, 0⟩, ⟨some (List.replicate 202 97), 202⟩), ⟨[], 214⟩) := by decide +kernel

end Verif.Handler
