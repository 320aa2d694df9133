import Verif.Lemmas.Protect
import Verif.Props.C70

/-!
# C71: protected and restricted sample entries

`C` is the writer and reader of the boxes in an entry, of any classes; `Family C ks` says that each of them is written
and read back by itself.
-/

namespace Verif.Prot

open Verif.Ent
open Verif.Rows (ISFM)

variable {α β : Type} {C : Class α} {D : Class β} {ks : List (Kid α)}

/-! ## Protection by ISMACryp -/

/-- A visual entry is protected: the type is `encv`, and a protection box with the former type is added. -/
theorem c71_protect_visual (hk : Family C ks) (hno : ∀ k ∈ ks, k.type ≠ fcc 's' 'i' 'n' 'f') {t dref salt flags : Nat}
    {reserved : Bytes} {f : Video} {x : ISFM} {url : Option Bytes} (hflags : flags / 2 % 2 = 1) (hf : f.Fits)
    (hh : HeadFits reserved dref) (ht : GoodType t) (hx : FormatFits x) (hu : Plain (url.getD []))
    (hsalt : salt < 2 ^ 64) (hl : 270 + (wire ks).length + (url.getD []).length < 2 ^ 32) :
    transformEntry C flags (clear t reserved dref f.wire ks) x url salt =
      .ok (locked (fcc 'e' 'n' 'c' 'v') reserved dref f.wire ks (ismaSinf t x (url.getD []) salt)) := by
  have e := Video.length hf
  have hget : ParsesAt Video.get 16 f.wire f := (Video.parses hf).at _
  obtain ⟨hd, _, hp, _⟩ := parse_of_reads (clear_reads (C := C) (n := 16 + f.wire.length) (put := Video.put) hk hno hget hh ht
    (by rw [e]; omega))
  have := protect_ok (enc := tEncv) hk hno hp f.emits hh ht.2.1 (by unfold GoodType; decide) hx hu hsalt (by rw [e]; omega)
  unfold transformEntry
  rw [if_pos hflags]
  rw [e] at this
  exact this

/-- The same for an audio entry, whose type becomes `enca`. Here an entry with fields of QuickTime is no exception: the
code reads the entry as one without them, see `c71_protect_quicktime`. -/
theorem c71_protect_audio (hk : Family C ks) (hno : ∀ k ∈ ks, k.type ≠ fcc 's' 'i' 'n' 'f') {t dref salt flags : Nat}
    {reserved : Bytes} {f : Audio} {x : ISFM} {url : Option Bytes} (hflags : flags / 2 % 2 = 0) (hflags' : flags / 4 % 2 = 1)
    (hf : f.Fits) (hh : HeadFits reserved dref) (ht : GoodType t) (hx : FormatFits x) (hu : Plain (url.getD []))
    (hsalt : salt < 2 ^ 64) (hl : 220 + (wire ks).length + (url.getD []).length < 2 ^ 32) :
    transformEntry C flags (clear t reserved dref f.wire ks) x url salt =
      .ok (locked (fcc 'e' 'n' 'c' 'a') reserved dref f.wire ks (ismaSinf t x (url.getD []) salt)) := by
  have e := Audio.length hf
  have hget : ParsesAt Audio.get 16 f.wire f := (Audio.parses hf).at _
  obtain ⟨hd, _, hp, _⟩ := parse_of_reads (clear_reads (C := C) (n := 16 + f.wire.length) (put := Audio.put) hk hno hget hh ht
    (by rw [e]; omega))
  have := protect_ok (enc := tEnca) hk hno hp f.emits hh ht.2.1 (by unfold GoodType; decide) hx hu hsalt (by rw [e]; omega)
  unfold transformEntry
  rw [if_neg (by omega), if_pos hflags']
  rw [e] at this
  exact this

/-- A protected visual entry is read: whatever else is in the scheme information, the first boxes of the three types give
the address, the format and the salt, and the entry is given back in the clear with its former type. -/
theorem c71_unprotect_visual (hk : Family C ks) (hno : ∀ k ∈ ks, k.type ≠ fcc 's' 'i' 'n' 'f') {t dref salt : Nat}
    {reserved url u : Bytes} {f : Video} {x : ISFM} {infos : List (Kid (Info α))} {vk vx : Nat × Nat}
    (hs : SchemeFits t (fcc 'i' 'A' 'E' 'C') 1 url) (hi : Readable (info C) infos)
    (hkms : first (fcc 'i' 'K' 'M' 'S') infos = some (.kms vk (some (u ++ [0])))) (hu : Plain u)
    (hsfm : first (fcc 'i' 'S' 'F' 'M') infos = some (.sfm vx x))
    (hslt : (first (fcc 'i' 'S' 'L' 'T') infos = none ∧ salt = 0) ∨ first (fcc 'i' 'S' 'L' 'T') infos = some (.slt salt))
    (hf : f.Fits) (hh : HeadFits reserved dref) (ht : GoodType t)
    (hl : 135 + (wire ks).length + url.length + (wire infos).length < 2 ^ 32) (want : Bool) :
    untransformEntry C D
      (locked (fcc 'e' 'n' 'c' 'v') reserved dref f.wire ks (sinfWire t (fcc 'i' 'A' 'E' 'C') 1 url (wire infos))) want =
      .ok ⟨x, if want then some u else none, salt, clear t reserved dref f.wire ks⟩ := by
  have e := Video.length hf
  have hget : ParsesAt Video.get 16 f.wire f := (Video.parses hf).at _
  have hg : GoodType (fcc 'e' 'n' 'c' 'v') := by unfold GoodType; decide
  have hl' : 65 + f.wire.length + (wire ks).length + url.length + (wire infos).length < 4294967296 := by rw [e]; omega
  obtain ⟨hd, h1, _, r, hp⟩ := parse_of_reads (locked_reads (C := C) (n := 16 + f.wire.length) (put := Video.put) hk hno hs hi
    hget hh hg hl')
  have := unprotect_ok (enc := fcc 'e' 'n' 'c' 'v') hk hno hs hi hkms hu hsfm hslt hget f.emits hh hg ht hl' want
  unfold untransformEntry
  rw [hp]
  simp only
  rw [if_neg (by rw [h1]; decide), if_pos (show hd.type = tEncv from h1)]
  rw [e] at this
  exact this

/-- The same for an audio entry. -/
theorem c71_unprotect_audio (hk : Family C ks) (hno : ∀ k ∈ ks, k.type ≠ fcc 's' 'i' 'n' 'f') {t dref salt : Nat}
    {reserved url u : Bytes} {f : Audio} {x : ISFM} {infos : List (Kid (Info α))} {vk vx : Nat × Nat}
    (hs : SchemeFits t (fcc 'i' 'A' 'E' 'C') 1 url) (hi : Readable (info C) infos)
    (hkms : first (fcc 'i' 'K' 'M' 'S') infos = some (.kms vk (some (u ++ [0])))) (hu : Plain u)
    (hsfm : first (fcc 'i' 'S' 'F' 'M') infos = some (.sfm vx x))
    (hslt : (first (fcc 'i' 'S' 'L' 'T') infos = none ∧ salt = 0) ∨ first (fcc 'i' 'S' 'L' 'T') infos = some (.slt salt))
    (hf : f.Fits) (hh : HeadFits reserved dref) (ht : GoodType t)
    (hl : 85 + (wire ks).length + url.length + (wire infos).length < 2 ^ 32) (want : Bool) :
    untransformEntry C D
      (locked (fcc 'e' 'n' 'c' 'a') reserved dref f.wire ks (sinfWire t (fcc 'i' 'A' 'E' 'C') 1 url (wire infos))) want =
      .ok ⟨x, if want then some u else none, salt, clear t reserved dref f.wire ks⟩ := by
  have e := Audio.length hf
  have hget : ParsesAt Audio.get 16 f.wire f := (Audio.parses hf).at _
  have hg : GoodType (fcc 'e' 'n' 'c' 'a') := by unfold GoodType; decide
  have hl' : 65 + f.wire.length + (wire ks).length + url.length + (wire infos).length < 4294967296 := by rw [e]; omega
  obtain ⟨hd, h1, _, r, hp⟩ := parse_of_reads (locked_reads (C := C) (n := 16 + f.wire.length) (put := Audio.put) hk hno hs hi
    hget hh hg hl')
  have := unprotect_ok (enc := fcc 'e' 'n' 'c' 'a') hk hno hs hi hkms hu hsfm hslt hget f.emits hh hg ht hl' want
  unfold untransformEntry
  rw [hp]
  simp only
  rw [if_pos (show hd.type = tEnca from h1)]
  rw [e] at this
  exact this

/-- Protecting a visual entry and removing the protection gives back the entry, byte for byte, and what was given; no
address comes back as an empty one. -/
theorem c71_visual (hk : Family C ks) (hno : ∀ k ∈ ks, k.type ≠ fcc 's' 'i' 'n' 'f') {t dref salt flags : Nat}
    {reserved : Bytes} {f : Video} {x : ISFM} {url : Option Bytes} (hflags : flags / 2 % 2 = 1) (hf : f.Fits)
    (hh : HeadFits reserved dref) (ht : GoodType t) (hx : FormatFits x) (hu : Plain (url.getD []))
    (hsalt : salt < 2 ^ 64) (hl : 270 + (wire ks).length + (url.getD []).length < 2 ^ 32) (want : Bool) :
    (transformEntry C flags (clear t reserved dref f.wire ks) x url salt).bind (fun b => untransformEntry C D b want) =
      .ok ⟨x, if want then some (url.getD []) else none, salt, clear t reserved dref f.wire ks⟩ := by
  rw [c71_protect_visual hk hno hflags hf hh ht hx hu hsalt hl]
  have hi := first_isma (α := α) x (some (url.getD [] ++ [0])) (url.getD []) salt
  have := c71_unprotect_visual (D := D) hk hno (isma_fits ht.2.1) (ismaKids_reads C hx hu (by omega) hsalt) hi.1 hu hi.2.1 hi.2.2
    hf hh ht (by
      rw [wire_ismaKids]
      have := ismaWire_length x (url.getD []) salt
      have : isma.length = 18 := by decide
      omega) want
  rw [wire_ismaKids] at this
  exact this

/-- The same for an audio entry with no fields of QuickTime. The full claim, with them, is false: `c71_protect_quicktime`. -/
theorem c71_audio_partial (hk : Family C ks) (hno : ∀ k ∈ ks, k.type ≠ fcc 's' 'i' 'n' 'f') {t dref salt flags : Nat}
    {reserved : Bytes} {f : Audio} {x : ISFM} {url : Option Bytes} (hflags : flags / 2 % 2 = 0) (hflags' : flags / 4 % 2 = 1)
    (hf : f.Fits) (hh : HeadFits reserved dref) (ht : GoodType t) (hx : FormatFits x) (hu : Plain (url.getD []))
    (hsalt : salt < 2 ^ 64) (hl : 220 + (wire ks).length + (url.getD []).length < 2 ^ 32) (want : Bool) :
    (transformEntry C flags (clear t reserved dref f.wire ks) x url salt).bind (fun b => untransformEntry C D b want) =
      .ok ⟨x, if want then some (url.getD []) else none, salt, clear t reserved dref f.wire ks⟩ := by
  rw [c71_protect_audio hk hno hflags hflags' hf hh ht hx hu hsalt hl]
  have hi := first_isma (α := α) x (some (url.getD [] ++ [0])) (url.getD []) salt
  have := c71_unprotect_audio (D := D) hk hno (isma_fits ht.2.1) (ismaKids_reads C hx hu (by omega) hsalt) hi.1 hu hi.2.1 hi.2.2
    hf hh ht (by
      rw [wire_ismaKids]
      have := ismaWire_length x (url.getD []) salt
      have : isma.length = 18 := by decide
      omega) want
  rw [wire_ismaKids] at this
  exact this

/-! ## What is not given back, and errors -/

/-- Protecting an entry that is protected replaces the protection box: the former type and the former parameters are lost,
and removing the protection gives an entry of the type `encv` with no protection box. -/
theorem c71_twice (hk : Family C ks) (hno : ∀ k ∈ ks, k.type ≠ fcc 's' 'i' 'n' 'f') {t dref salt salt' flags : Nat}
    {reserved : Bytes} {f : Video} {x x' : ISFM} {url url' : Option Bytes} (hflags : flags / 2 % 2 = 1) (hf : f.Fits)
    (hh : HeadFits reserved dref) (ht : GoodType t) (hx : FormatFits x) (hx' : FormatFits x') (hu : Plain (url.getD []))
    (hu' : Plain (url'.getD [])) (hsalt : salt < 2 ^ 64) (hsalt' : salt' < 2 ^ 64)
    (hl : 270 + (wire ks).length + (url.getD []).length < 2 ^ 32)
    (hl' : 270 + (wire ks).length + (url'.getD []).length < 2 ^ 32) (want : Bool) :
    ((transformEntry C flags (clear t reserved dref f.wire ks) x url salt).bind fun b =>
      transformEntry C flags b x' url' salt') =
      .ok (locked (fcc 'e' 'n' 'c' 'v') reserved dref f.wire ks (ismaSinf (fcc 'e' 'n' 'c' 'v') x' (url'.getD []) salt')) ∧
    ((transformEntry C flags (clear t reserved dref f.wire ks) x url salt).bind fun b =>
      (transformEntry C flags b x' url' salt').bind fun b => untransformEntry C D b want) =
      .ok ⟨x', if want then some (url'.getD []) else none, salt', clear (fcc 'e' 'n' 'c' 'v') reserved dref f.wire ks⟩ := by
  have e := Video.length hf
  have hget : ParsesAt Video.get 16 f.wire f := (Video.parses hf).at _
  have hg : GoodType (fcc 'e' 'n' 'c' 'v') := by unfold GoodType; decide
  rw [c71_protect_visual hk hno hflags hf hh ht hx hu hsalt hl]
  obtain ⟨hd, _, hp, _⟩ := parse_of_reads (locked_reads (C := C) (n := 16 + f.wire.length) (put := Video.put) hk hno
    (isma_fits ht.2.1) (ismaKids_reads C hx hu (by omega) hsalt) hget hh hg (by
      rw [wire_ismaKids, e]
      have := ismaWire_length x (url.getD []) salt
      have : isma.length = 18 := by decide
      omega))
  rw [wire_ismaKids] at hp
  have h2 := protect_ok (enc := tEncv) hk hno hp f.emits hh hg.2.1 (by unfold GoodType; decide) hx' hu' hsalt' (by rw [e]; omega)
  have h3 : transformEntry C flags (locked (fcc 'e' 'n' 'c' 'v') reserved dref f.wire ks (ismaSinf t x (url.getD []) salt)) x' url'
      salt' = .ok (locked (fcc 'e' 'n' 'c' 'v') reserved dref f.wire ks (ismaSinf (fcc 'e' 'n' 'c' 'v') x' (url'.getD []) salt')) := by
    unfold transformEntry
    rw [if_pos hflags]
    rw [e] at h2
    exact h2
  refine ⟨h3, ?_⟩
  show (transformEntry C flags (locked (fcc 'e' 'n' 'c' 'v') reserved dref f.wire ks (ismaSinf t x (url.getD []) salt)) x' url'
      salt').bind _ = _
  rw [h3]
  have h4 := c71_visual (D := D) hk hno hflags hf hh hg hx' hu' hsalt' hl' want
  rw [c71_protect_visual hk hno hflags hf hh hg hx' hu' hsalt' hl'] at h4
  exact h4

/-- The kinds of entries: only tracks with the flag of video or of audio. -/
theorem c71_flags (flags : Nat) (h : flags / 2 % 2 = 0) (h' : flags / 4 % 2 = 0) (b : Bytes) (x : ISFM) (url : Option Bytes)
    (salt : Nat) : transformEntry C flags b x url salt = .err .notImplemented := by
  unfold transformEntry
  rw [if_neg (by omega), if_neg (by omega)]

/-- An entry of any other type has no protection to remove. -/
theorem c71_other {t : Nat} {v : β} {b : Bytes} (h : Reads D t v b) (hv : t ≠ fcc 'e' 'n' 'c' 'v') (ha : t ≠ fcc 'e' 'n' 'c' 'a')
    (want : Bool) : untransformEntry C D b want = .err .notImplemented := by
  obtain ⟨hd, h1, h2, r, h3⟩ := parse_of_reads h
  unfold untransformEntry
  rw [h3]
  simp only
  rw [if_neg (by rw [h1]; exact ha), if_neg (by rw [h1]; exact hv), h2]

private theorem opened (hk : Family C ks) (hno : ∀ k ∈ ks, k.type ≠ fcc 's' 'i' 'n' 'f') {enc t scheme version dref : Nat}
    {reserved w url : Bytes} {infos : List (Kid (Info α))} (hw : Fields enc w) (hs : SchemeFits t scheme version url)
    (hi : Readable (info C) infos) (hh : HeadFits reserved dref)
    (hl : 135 + (wire ks).length + url.length + (wire infos).length < 4294967296) :
    ∃ (φ : Type) (K : Class (EncEntry φ (Bx α))) (e : EncEntry φ (Bx α)) (hd : Hdr) (r : Bytes),
      e.sinf = some (.sinf ⟨some t, some (schmBack scheme version url), some (vals (stay infos))⟩) ∧
      (∀ want, untransformEntry C D (locked enc reserved dref w ks (sinfWire t scheme version url (wire infos))) want =
        unprotect K (locked enc reserved dref w ks (sinfWire t scheme version url (wire infos))) want) ∧
      parseAtom K.parse (locked enc reserved dref w ks (sinfWire t scheme version url (wire infos))) = .ok (e, hd, r) := by
  cases hw with
  | video f hf =>
    have hg : GoodType (fcc 'e' 'n' 'c' 'v') := by unfold GoodType; decide
    obtain ⟨hd, h1, h2, r, hp⟩ := parse_of_reads (locked_reads (C := C) (n := videoSize) (put := Video.put) hk hno hs hi
      ((Video.parses hf).at _) hh hg (by rw [Video.length hf]; omega))
    refine ⟨_, encVisual (boxes C), _, hd, [], rfl, fun want => ?_, h2⟩
    unfold untransformEntry
    rw [hp]
    simp only
    rw [if_neg (by rw [h1]; decide), if_pos (show hd.type = tEncv from h1)]
  | audio f hf =>
    have hg : GoodType (fcc 'e' 'n' 'c' 'a') := by unfold GoodType; decide
    obtain ⟨hd, h1, h2, r, hp⟩ := parse_of_reads (locked_reads (C := C) (n := audioSize) (put := Audio.put) hk hno hs hi
      ((Audio.parses hf).at _) hh hg (by rw [Audio.length hf]; omega))
    refine ⟨_, encAudio (boxes C), _, hd, [], rfl, fun want => ?_, h2⟩
    unfold untransformEntry
    rw [hp]
    simp only
    rw [if_pos (show hd.type = tEnca from h1)]

/-- An entry protected by another scheme, or another version of it, is refused. -/
theorem c71_scheme (hk : Family C ks) (hno : ∀ k ∈ ks, k.type ≠ fcc 's' 'i' 'n' 'f') {enc t scheme version dref : Nat}
    {reserved w url : Bytes} {infos : List (Kid (Info α))} (hw : Fields enc w) (hs : SchemeFits t scheme version url)
    (hi : Readable (info C) infos) (hh : HeadFits reserved dref)
    (hl : 135 + (wire ks).length + url.length + (wire infos).length < 2 ^ 32)
    (hne : scheme ≠ fcc 'i' 'A' 'E' 'C' ∨ version ≠ 1) (want : Bool) :
    untransformEntry C D (locked enc reserved dref w ks (sinfWire t scheme version url (wire infos))) want =
      .err .notImplemented := by
  obtain ⟨φ, K, e, hd, r, h1, h2, h3⟩ := opened (D := D) hk hno hw hs hi hh hl
  rw [h2 want]
  unfold unprotect
  rw [h3]
  have : scheme ≠ tAes ∨ version ≠ 1 := hne
  simp only [getScheme, getSinf, h1, schmBack_scheme, schmBack_version, Res.ok_bind, Bool.false_eq_true, if_false, if_pos this]

/-- An entry that has the type of a protected one and no protection box is refused. -/
theorem c71_unlocked (hk : Family C ks) (hno : ∀ k ∈ ks, k.type ≠ fcc 's' 'i' 'n' 'f') {enc dref : Nat} {reserved w : Bytes}
    (hw : Fields enc w) (hh : HeadFits reserved dref) (hl : 86 + (wire ks).length < 2 ^ 32) (want : Bool) :
    untransformEntry C D (clear enc reserved dref w ks) want = .err .badParam := by
  cases hw with
  | video f hf =>
    have hg : GoodType (fcc 'e' 'n' 'c' 'v') := by unfold GoodType; decide
    obtain ⟨hd, h1, h2, r, hp⟩ := parse_of_reads (clear_reads (C := C) (n := videoSize) (put := Video.put) hk hno
      ((Video.parses hf).at _) hh hg (by rw [Video.length hf]; omega))
    unfold untransformEntry
    rw [hp]
    simp only
    rw [if_neg (by rw [h1]; decide), if_pos (show hd.type = tEncv from h1)]
    have h2 : parseAtom (encVisual (boxes C)).parse (clear _ reserved dref f.wire ks) = _ := h2
    unfold unprotect
    rw [h2]
    rfl
  | audio f hf =>
    have hg : GoodType (fcc 'e' 'n' 'c' 'a') := by unfold GoodType; decide
    obtain ⟨hd, h1, h2, r, hp⟩ := parse_of_reads (clear_reads (C := C) (n := audioSize) (put := Audio.put) hk hno
      ((Audio.parses hf).at _) hh hg (by rw [Audio.length hf]; omega))
    unfold untransformEntry
    rw [hp]
    simp only
    rw [if_pos (show hd.type = tEnca from h1)]
    have h2 : parseAtom (encAudio (boxes C)).parse (clear _ reserved dref f.wire ks) = _ := h2
    unfold unprotect
    rw [h2]
    rfl

/-- The caller wants the address, and there is no box for it: a NULL pointer is dereferenced. -/
theorem c71_no_address (hk : Family C ks) (hno : ∀ k ∈ ks, k.type ≠ fcc 's' 'i' 'n' 'f') {enc t dref : Nat}
    {reserved w url : Bytes} {infos : List (Kid (Info α))} (hw : Fields enc w) (hs : SchemeFits t (fcc 'i' 'A' 'E' 'C') 1 url)
    (hi : Readable (info C) infos) (hh : HeadFits reserved dref)
    (hl : 135 + (wire ks).length + url.length + (wire infos).length < 2 ^ 32)
    (hkms : first (fcc 'i' 'K' 'M' 'S') infos = none) :
    untransformEntry C D (locked enc reserved dref w ks (sinfWire t (fcc 'i' 'A' 'E' 'C') 1 url (wire infos))) true = .ub := by
  obtain ⟨φ, K, e, hd, r, h1, h2, h3⟩ := opened (D := D) hk hno hw hs hi hh hl
  rw [h2]
  unfold unprotect
  rw [h3]
  have hkms : first tKms infos = none := hkms
  have : ¬ (fcc 'i' 'A' 'E' 'C' ≠ tAes ∨ (1 : Nat) ≠ 1) := by decide
  simp only [getScheme, getSinf, h1, schmBack_scheme, schmBack_version, Res.ok_bind, Bool.false_eq_true, if_false, if_neg this, getInfo,
    find_infos hi (show ¬ Dropped tKms by decide), hkms, if_true]
  rfl

/-- The same when the text of the address has no NUL. -/
theorem c71_open_address (hk : Family C ks) (hno : ∀ k ∈ ks, k.type ≠ fcc 's' 'i' 'n' 'f') {enc t dref : Nat}
    {reserved w url u : Bytes} {infos : List (Kid (Info α))} {vk : Nat × Nat} (hw : Fields enc w)
    (hs : SchemeFits t (fcc 'i' 'A' 'E' 'C') 1 url) (hi : Readable (info C) infos) (hh : HeadFits reserved dref)
    (hl : 135 + (wire ks).length + url.length + (wire infos).length < 2 ^ 32)
    (hkms : first (fcc 'i' 'K' 'M' 'S') infos = some (.kms vk (some u))) (hu : Plain u) :
    untransformEntry C D (locked enc reserved dref w ks (sinfWire t (fcc 'i' 'A' 'E' 'C') 1 url (wire infos))) true = .ub := by
  obtain ⟨φ, K, e, hd, r, h1, h2, h3⟩ := opened (D := D) hk hno hw hs hi hh hl
  rw [h2]
  unfold unprotect
  rw [h3]
  have hkms : first tKms infos = some (.kms vk (some u)) := hkms
  have : ¬ (fcc 'i' 'A' 'E' 'C' ≠ tAes ∨ (1 : Nat) ≠ 1) := by decide
  simp only [getScheme, getSinf, h1, schmBack_scheme, schmBack_version, Res.ok_bind, Bool.false_eq_true, if_false, if_neg this, getInfo,
    find_infos hi (show ¬ Dropped tKms by decide), hkms, if_true, copyStr, Str.cstr_open hu]
  rfl

/-- No box for the format: a NULL pointer is dereferenced. -/
theorem c71_no_format (hk : Family C ks) (hno : ∀ k ∈ ks, k.type ≠ fcc 's' 'i' 'n' 'f') {enc t dref : Nat}
    {reserved w url : Bytes} {infos : List (Kid (Info α))} (hw : Fields enc w) (hs : SchemeFits t (fcc 'i' 'A' 'E' 'C') 1 url)
    (hi : Readable (info C) infos) (hh : HeadFits reserved dref)
    (hl : 135 + (wire ks).length + url.length + (wire infos).length < 2 ^ 32)
    (hsfm : first (fcc 'i' 'S' 'F' 'M') infos = none) :
    untransformEntry C D (locked enc reserved dref w ks (sinfWire t (fcc 'i' 'A' 'E' 'C') 1 url (wire infos))) false = .ub := by
  obtain ⟨φ, K, e, hd, r, h1, h2, h3⟩ := opened (D := D) hk hno hw hs hi hh hl
  rw [h2]
  unfold unprotect
  rw [h3]
  have hsfm : first tSfm infos = none := hsfm
  have : ¬ (fcc 'i' 'A' 'E' 'C' ≠ tAes ∨ (1 : Nat) ≠ 1) := by decide
  simp only [getScheme, getSinf, h1, schmBack_scheme, schmBack_version, Res.ok_bind, Bool.false_eq_true, if_false, if_neg this, getInfo,
    find_infos hi (show ¬ Dropped tKms by decide), find_infos hi (show ¬ Dropped tSfm by decide),
    find_infos hi (show ¬ Dropped tSlt by decide), hsfm]

private def set (acc : Sinf α) : Part α → Prop
  | .frma _ => acc.frma.isSome
  | .schm _ _ => acc.schm.isSome
  | .schi _ => acc.schi.isSome
  | .other _ _ => True

private theorem adds_sinf (ps : List (Kid (Part α))) (acc : Sinf α) :
    ((Proper (vals (stay ps)) ∧ ∀ p ∈ vals (stay ps), ¬ set acc p) →
      ∃ x, adds Sinf.add acc ps = .ok x ∧
        x.frma = acc.frma.or ((vals (stay ps)).findSome? fun | .frma n => some n | _ => none) ∧
        x.schm = acc.schm.or ((vals (stay ps)).findSome? fun | .schm v y => some (v, y) | _ => none) ∧
        x.schi = acc.schi.or ((vals (stay ps)).findSome? fun | .schi l => some l | _ => none)) ∧
    (¬ (Proper (vals (stay ps)) ∧ ∀ p ∈ vals (stay ps), ¬ set acc p) →
      adds Sinf.add acc ps = .err .badData ∨ adds Sinf.add acc ps = .err .invalidMedia) := by
  induction ps generalizing acc with
  | nil =>
    refine ⟨fun _ => ⟨acc, rfl, ?_, ?_, ?_⟩, fun h => absurd ⟨⟨by simp [stay, vals], by simp [stay, vals]⟩, by simp [stay, vals]⟩ h⟩ <;>
      simp [stay, vals]
  | cons k ps ih =>
    by_cases hfr : Tree.isFree k.type
    · have e : adds Sinf.add acc (k :: ps) = adds Sinf.add acc ps := by
        simp only [adds, hfr, if_true]; rfl
      rw [e, stay_cons, if_pos hfr, List.nil_append]
      exact ih acc
    · rw [stay_cons, if_neg hfr]
      have e : adds Sinf.add acc (k :: ps) = (Sinf.add acc k.type k.val).bind fun s => adds Sinf.add s ps := by
        simp only [adds, hfr, Bool.false_eq_true, if_false]
      rw [e]
      simp only [List.singleton_append]
      cases hv : k.val with
      | other t v =>
        refine ⟨fun h => absurd rfl (h.1.1 _ (List.mem_cons_self ..)), fun _ => .inr rfl⟩
      | frma n =>
        simp only [Sinf.add]
        by_cases ha : acc.frma.isSome
        · rw [if_pos ha]
          exact ⟨fun h => absurd ha (h.2 _ (List.mem_cons_self ..)), fun _ => .inl rfl⟩
        · rw [if_neg ha]
          have h0 : acc.frma = none := by simpa using ha
          have key : (Proper (Part.frma n :: vals (stay ps)) ∧ ∀ p ∈ Part.frma n :: vals (stay ps), ¬ set acc p) ↔
              (Proper (vals (stay ps)) ∧ ∀ p ∈ vals (stay ps), ¬ set { acc with frma := some n } p) := by
            unfold Proper
            simp only [List.mem_cons, List.map_cons, List.nodup_cons, forall_eq_or_imp, List.mem_map, not_exists, not_and]
            constructor
            · rintro ⟨⟨⟨_, h1⟩, h2, h3⟩, _, h4⟩
              refine ⟨⟨h1, h3⟩, fun p hp => ?_⟩
              have := h4 p hp
              have h2' := h2 p hp
              cases p with
              | frma m => exact absurd rfl h2'
              | schm v y => exact this
              | schi l => exact this
              | other t v => exact this
            · rintro ⟨⟨h1, h2⟩, h3⟩
              refine ⟨⟨⟨by simp [known], h1⟩, fun p hp => ?_, h2⟩, ha, fun p hp => ?_⟩
              · have := h3 p hp
                cases p with
                | frma m => exact absurd rfl this
                | schm v y => intro h; exact absurd h (by simp only [known]; decide)
                | schi l => intro h; exact absurd h (by simp only [known]; decide)
                | other t v => simp [known]
              · have := h3 p hp
                cases p with
                | frma m => exact ha
                | schm v y => exact this
                | schi l => exact this
                | other t v => exact this
          rw [key]
          have := ih { acc with frma := some n }
          refine ⟨fun h => ?_, this.2⟩
          obtain ⟨x, hx, h1, h2, h3⟩ := this.1 h
          exact ⟨x, hx, by rw [h1, h0]; rfl, by rw [h2]; rfl, by rw [h3]; rfl⟩
      | schm vf y =>
        simp only [Sinf.add]
        by_cases ha : acc.schm.isSome
        · rw [if_pos ha]
          exact ⟨fun h => absurd ha (h.2 _ (List.mem_cons_self ..)), fun _ => .inl rfl⟩
        · rw [if_neg ha]
          have h0 : acc.schm = none := by simpa using ha
          have key : (Proper (Part.schm vf y :: vals (stay ps)) ∧ ∀ p ∈ Part.schm vf y :: vals (stay ps), ¬ set acc p) ↔
              (Proper (vals (stay ps)) ∧ ∀ p ∈ vals (stay ps), ¬ set { acc with schm := some (vf, y) } p) := by
            unfold Proper
            simp only [List.mem_cons, List.map_cons, List.nodup_cons, forall_eq_or_imp, List.mem_map, not_exists, not_and]
            constructor
            · rintro ⟨⟨⟨_, h1⟩, h2, h3⟩, _, h4⟩
              refine ⟨⟨h1, h3⟩, fun p hp => ?_⟩
              have := h4 p hp
              have h2' := h2 p hp
              cases p with
              | frma m => exact this
              | schm v y => exact absurd rfl h2'
              | schi l => exact this
              | other t v => exact this
            · rintro ⟨⟨h1, h2⟩, h3⟩
              refine ⟨⟨⟨by simp [known], h1⟩, fun p hp => ?_, h2⟩, ha, fun p hp => ?_⟩
              · have := h3 p hp
                cases p with
                | frma m => intro h; exact absurd h (by simp only [known]; decide)
                | schm v y => exact absurd rfl this
                | schi l => intro h; exact absurd h (by simp only [known]; decide)
                | other t v => simp [known]
              · have := h3 p hp
                cases p with
                | frma m => exact this
                | schm v y => exact ha
                | schi l => exact this
                | other t v => exact this
          rw [key]
          have := ih { acc with schm := some (vf, y) }
          refine ⟨fun h => ?_, this.2⟩
          obtain ⟨x, hx, h1, h2, h3⟩ := this.1 h
          exact ⟨x, hx, by rw [h1]; rfl, by rw [h2, h0]; rfl, by rw [h3]; rfl⟩
      | schi l =>
        simp only [Sinf.add]
        by_cases ha : acc.schi.isSome
        · rw [if_pos ha]
          exact ⟨fun h => absurd ha (h.2 _ (List.mem_cons_self ..)), fun _ => .inl rfl⟩
        · rw [if_neg ha]
          have h0 : acc.schi = none := by simpa using ha
          have key : (Proper (Part.schi l :: vals (stay ps)) ∧ ∀ p ∈ Part.schi l :: vals (stay ps), ¬ set acc p) ↔
              (Proper (vals (stay ps)) ∧ ∀ p ∈ vals (stay ps), ¬ set { acc with schi := some l } p) := by
            unfold Proper
            simp only [List.mem_cons, List.map_cons, List.nodup_cons, forall_eq_or_imp, List.mem_map, not_exists, not_and]
            constructor
            · rintro ⟨⟨⟨_, h1⟩, h2, h3⟩, _, h4⟩
              refine ⟨⟨h1, h3⟩, fun p hp => ?_⟩
              have := h4 p hp
              have h2' := h2 p hp
              cases p with
              | frma m => exact this
              | schm v y => exact this
              | schi l => exact absurd rfl h2'
              | other t v => exact this
            · rintro ⟨⟨h1, h2⟩, h3⟩
              refine ⟨⟨⟨by simp [known], h1⟩, fun p hp => ?_, h2⟩, ha, fun p hp => ?_⟩
              · have := h3 p hp
                cases p with
                | frma m => intro h; exact absurd h (by simp only [known]; decide)
                | schm v y => intro h; exact absurd h (by simp only [known]; decide)
                | schi l => exact absurd rfl this
                | other t v => simp [known]
              · have := h3 p hp
                cases p with
                | frma m => exact this
                | schm v y => exact this
                | schi l => exact ha
                | other t v => exact this
          rw [key]
          have := ih { acc with schi := some l }
          refine ⟨fun h => ?_, this.2⟩
          obtain ⟨x, hx, h1, h2, h3⟩ := this.1 h
          exact ⟨x, hx, by rw [h1]; rfl, by rw [h2]; rfl, by rw [h3, h0]; rfl⟩

/-- The boxes of a protection box can be in any order and any of them can be missing. -/
theorem c71_sinf_reads {ps : List (Kid (Part α))} (hp : Readable (part C) ps) (hk : Proper (vals (stay ps)))
    (hl : 8 + (wire ps).length < 2 ^ 32) :
    Reads (sinf C) (fcc 's' 'i' 'n' 'f')
      ⟨(vals (stay ps)).findSome? fun | .frma n => some n | _ => none,
        (vals (stay ps)).findSome? fun | .schm v y => some (v, y) | _ => none,
        (vals (stay ps)).findSome? fun | .schi l => some l | _ => none⟩ (box (fcc 's' 'i' 'n' 'f') (wire ps)) := by
  obtain ⟨x, hx, h1, h2, h3⟩ := (adds_sinf ps ⟨none, none, none⟩).1 ⟨hk, by
    intro p hp'
    have := hk.1 p hp'
    cases p with
    | other t v => exact absurd rfl this
    | _ => simp [set]⟩
  have := sinf_reads hp hx hl
  simp only [Option.none_or] at h1 h2 h3
  obtain ⟨a, b, c⟩ := x
  simp only at h1 h2 h3
  rw [h1, h2, h3] at this
  exact this

/-- A box of another type, or a second one of a type, makes the protection box unreadable. -/
theorem c71_sinf_bad {ps : List (Kid (Part α))} (hp : Readable (part C) ps) (hk : ¬ Proper (vals (stay ps)))
    (hl : 8 + (wire ps).length < 2 ^ 32) (rest : Bytes) :
    parseAtom (sinf C).parse (box (fcc 's' 'i' 'n' 'f') (wire ps) ++ rest) = .err .badData ∨
      parseAtom (sinf C).parse (box (fcc 's' 'i' 'n' 'f') (wire ps) ++ rest) = .err .invalidMedia := by
  have hg : GoodType (fcc 's' 'i' 'n' 'f') := by unfold GoodType; decide
  rcases (adds_sinf ps ⟨none, none, none⟩).2 (fun h => hk h.1) with h | h
  · exact .inl (parseAtom_err (addAll_err hp (Nat.le_refl _) hl h rest) hl hg)
  · exact .inr (parseAtom_err (addAll_err hp (Nat.le_refl _) hl h rest) hl hg)

/-- An audio entry with the fields of QuickTime cannot be protected: they are taken for a box, and with more samples per
packet than bytes in the entry the size of that box is refused. -/
theorem c71_protect_quicktime {t dref salt flags : Nat} {reserved : Bytes} {f : Audio} {q : Qt} {x : ISFM} {url : Option Bytes}
    (hflags : flags / 2 % 2 = 0) (hflags' : flags / 4 % 2 = 1) (hf : f.Fits) (hq : q.Fits) (hh : HeadFits reserved dref)
    (ht : GoodType t) (hbig : 16 + (wire ks).length < q.samplesPerPacket) (hl : 52 + (wire ks).length < 2 ^ 32) :
    transformEntry C flags (box t (headWire reserved dref ++ (f.wire ++ (q.wire ++ wire ks)))) x url salt = .err .badData := by
  unfold transformEntry
  rw [if_neg (by omega), if_pos hflags']
  unfold protect
  have e : 8 + (headWire reserved dref ++ (f.wire ++ (q.wire ++ wire ks))).length = 52 + (wire ks).length := by
    simp only [List.length_append, headWire_length hh, Audio.length hf, Qt.length]; omega
  have := parseAtom_err (body := (encAudio (boxes C)).parse) (r := []) (e := .badData) (type := t)
    (payload := headWire reserved dref ++ (f.wire ++ (q.wire ++ wire ks))) ?_ (by rw [e]; exact hl) ht
  · rw [List.append_nil] at this
    rw [this]
  · rw [e]
    show (getBytes 6 >>= _) _ = _
    unfold headWire
    rw [List.append_nil, List.append_assoc, P.bind_apply, (parses_getBytes hh.1).at 8]
    simp only
    rw [P.bind_apply, (parses_get16' hh.2).at _]
    simp only
    rw [P.bind_apply, (Audio.parses hf).at _]
    simp only [addAll, hh.1, be_length, Audio.length hf]
    rw [P.bind_apply, P.bind_apply]
    simp only [addList, addLoop]
    rw [if_pos (by omega)]
    have hp : parseAtom (boxes C).parse (q.wire ++ wire ks) = .err .badData := by
      unfold parseAtom parseHeader Qt.wire
      rw [List.append_assoc, rd32_be, Res.ok_bind]
      have h1 := hq.1
      have e : q.samplesPerPacket % 4294967296 = q.samplesPerPacket := Nat.mod_eq_of_lt h1
      simp only [e]
      rw [if_neg (show ¬ q.samplesPerPacket = 0 by omega), if_pos (by
        simp only [List.length_append, be_length]
        omega)]
    rw [hp]

/-! ## Restricted entries -/

/-- A visual entry is restricted: what is written has the type `resv` and, after the other boxes, a restriction box with the
former type, the scheme and no scheme information. -/
theorem c71_restrict (hk : Family C ks) (hno : ∀ k ∈ ks, k.type ≠ fcc 'r' 'i' 'n' 'f') {t dref scheme version : Nat}
    {reserved : Bytes} {f : Video} {url : Option Bytes} (hs : SchemeFits t scheme version (url.getD [])) (hf : f.Fits)
    (hh : HeadFits reserved dref) (hl : 135 + (wire ks).length + (url.getD []).length < 2 ^ 32) :
    Writes (restricted (rboxes C)) (rTransform scheme version url ⟨t, reserved, dref, f, (vals ks).map Rx.other⟩)
      (locked (fcc 'r' 'e' 's' 'v') reserved dref f.wire ks (rinfWire t scheme version (url.getD []) [])) := by
  have e := Video.length hf
  have hw := rinf_kid_writes (C := C) (p := url.map (· ++ [0])) (ks := []) hs (by cases url <;> simp) (by
    intro k hk; cases hk) (by simp [wire]; omega) 0
  let sk : Kid (Rx α) := ⟨fcc 'r' 'i' 'n' 'f', .rinf ⟨[.frma t, .schm (0, 0) ⟨scheme, version, url.map (· ++ [0])⟩, .schi []],
    some t, some ((0, 0), ⟨scheme, version, url.map (· ++ [0])⟩), some []⟩, rinfWire t scheme version (url.getD []) []⟩
  have hall : WritesAll (rboxes C) (rothers ks ++ [sk]) :=
    writesAll_append (family_writes (rothers_survives hk hno)) (by
      intro k hk'
      rw [List.mem_singleton] at hk'
      subst hk'
      exact hw)
  have ew : wire (rothers ks ++ [sk]) = wire ks ++ rinfWire t scheme version (url.getD []) [] := by
    rw [wire_append, wire_rothers]; simp [wire, sk]
  have ev : vals (rothers ks ++ [sk]) = (vals ks).map Rx.other ++ [sk.val] := by
    unfold vals
    rw [List.map_append]
    have := vals_rothers ks
    unfold vals at this
    rw [this]
    rfl
  have := entry_writes hall (K := restricted (rboxes C))
    (x := rTransform scheme version url ⟨t, reserved, dref, f, (vals ks).map Rx.other⟩) (put := Video.put) (w := f.wire)
    ev.symm hh (show GoodType (fcc 'r' 'e' 's' 'v') by unfold GoodType; decide) (by
      rw [ew, List.length_append, e]
      have := rinfWire_length t scheme version (url.getD []) []
      simp only [List.length_nil] at this
      omega) (by rw [e]; rfl) rfl f.emits
  rw [ew] at this
  exact this

/-- Removing the restriction gives back the entry. -/
theorem c71_unrestrict (e : Entry Video (Rx α)) {l : List α} (he : e.ext = l.map Rx.other) (scheme version : Nat)
    (url : Option Bytes) : rUntransform (rTransform scheme version url e) = .ok e := by
  unfold rUntransform rTransform
  simp only [he]
  rw [find_rinf]
  simp only
  rw [erase_rinf, List.append_nil, ← he]

/-- Restricted twice, the first restriction is removed first, and its type is taken: the entry is then of its own type but
still has the second restriction box. -/
theorem c71_unrestrict_twice (e : Entry Video (Rx α)) {l : List α} (he : e.ext = l.map Rx.other) (scheme version scheme' version' : Nat)
    (url url' : Option Bytes) :
    rUntransform (rTransform scheme' version' url' (rTransform scheme version url e)) =
      .ok { e with ext := (rTransform scheme' version' url' { e with type := fcc 'r' 'e' 's' 'v' }).ext } := by
  unfold rUntransform rTransform
  simp only [he, List.append_assoc, List.singleton_append]
  rw [find_rinf]
  simp only
  rw [erase_rinf]
  rfl

/-- The boxes of the scheme information of a restricted entry, its scheme and its original type can be asked for: the first
box of the type is given, as it is written. The full claim, that what is not there is reported, is false:
`c71_resv_no_address`, `c71_resv_no_info`, `c71_resv_bare`. -/
theorem c71_resv_partial (hk : Family C ks) (hno : ∀ k ∈ ks, k.type ≠ fcc 'r' 'i' 'n' 'f') {t dref scheme version : Nat}
    {reserved url : Bytes} {f : Video} {infos : List (Kid (Info α))} (hs : SchemeFits t scheme version url)
    (hi : Readable (info C) infos) (hf : f.Fits) (hh : HeadFits reserved dref)
    (hl : 135 + (wire ks).length + url.length + (wire infos).length < 2 ^ 32) :
    let b := locked (fcc 'r' 'e' 's' 'v') reserved dref f.wire ks (rinfWire t scheme version url (wire infos))
    resvFormat C D b = .ok t ∧
    resvScheme C D b false = .ok (scheme, version, none) ∧
    (url ≠ [] → resvScheme C D b true = .ok (scheme, version, some url)) ∧
    ∀ k ∈ infos, ¬ Dropped k.type → first k.type infos = some k.val → Writes (info C) k.val k.bytes →
      resvInfo C D b k.type = .ok k.bytes := by
  have h := resv_of (D := D) (resv_reads hk hno hs hi hf hh hl)
  have hg : ∀ y : Rinf α, getRinf (⟨fcc 'r' 'e' 's' 'v', reserved, dref, f, (vals ks).map Rx.other ++ [.rinf y]⟩ : Entry Video (Rx α)) =
      .ok y := by
    intro y
    unfold getRinf
    simp only
    rw [find_rinf]
  refine ⟨?_, ?_, fun hu => ?_, fun k hk' hd hf' hw => ?_⟩
  · unfold resvFormat
    rw [h, Res.ok_bind, hg, Res.ok_bind]
    rfl
  · unfold resvScheme
    rw [h, Res.ok_bind]
    unfold rGetScheme
    rw [hg, Res.ok_bind]
    simp only [rinfBack, Bool.false_eq_true, if_false, schmBack_scheme, schmBack_version]
  · unfold resvScheme
    rw [h, Res.ok_bind]
    unfold rGetScheme
    rw [hg, Res.ok_bind]
    simp only [rinfBack, schmBack, if_neg hu, if_true, copyStr_text hs.text, Res.ok_bind]
  · unfold resvInfo
    rw [h, Res.ok_bind]
    unfold rGetInfo
    rw [hg, Res.ok_bind]
    simp only [rinfBack]
    rw [find_infos hi hd, hf', Res.ok_bind]
    exact hw.write

/-- A restricted entry as the standard has it, of the scheme `scheme` without an address: asking for the address reads a
NULL pointer. -/
theorem c71_resv_no_address (hk : Family C ks) (hno : ∀ k ∈ ks, k.type ≠ fcc 'r' 'i' 'n' 'f') {t dref scheme version : Nat}
    {reserved : Bytes} {f : Video} {infos : List (Kid (Info α))} (hs : SchemeFits t scheme version [])
    (hi : Readable (info C) infos) (hf : f.Fits) (hh : HeadFits reserved dref)
    (hl : 135 + (wire ks).length + (wire infos).length < 2 ^ 32) :
    resvScheme C D (locked (fcc 'r' 'e' 's' 'v') reserved dref f.wire ks (rinfWire t scheme version [] (wire infos))) true =
      .ub := by
  have h := resv_of (D := D) (resv_reads hk hno hs hi hf hh hl)
  unfold resvScheme
  rw [h, Res.ok_bind]
  unfold rGetScheme getRinf
  simp only
  rw [find_rinf]
  rfl

/-- Asking for a box that is not in the scheme information reads a NULL pointer. -/
theorem c71_resv_no_info (hk : Family C ks) (hno : ∀ k ∈ ks, k.type ≠ fcc 'r' 'i' 'n' 'f') {t dref scheme version : Nat}
    {reserved url : Bytes} {f : Video} {infos : List (Kid (Info α))} (hs : SchemeFits t scheme version url)
    (hi : Readable (info C) infos) (hf : f.Fits) (hh : HeadFits reserved dref)
    (hl : 135 + (wire ks).length + url.length + (wire infos).length < 2 ^ 32) {type : Nat} (hd : ¬ Dropped type)
    (hno' : first type infos = none) :
    resvInfo C D (locked (fcc 'r' 'e' 's' 'v') reserved dref f.wire ks (rinfWire t scheme version url (wire infos))) type =
      .ub := by
  have h := resv_of (D := D) (resv_reads hk hno hs hi hf hh hl)
  unfold resvInfo
  rw [h, Res.ok_bind]
  unfold rGetInfo getRinf
  simp only
  rw [find_rinf]
  simp only
  rw [Res.ok_bind]
  simp only [rinfBack]
  rw [find_infos hi hd, hno', Res.ok_bind]

/-- An entry of the type `resv` with no restriction box: all three functions read a pointer that was never set. -/
theorem c71_resv_bare (hk : Family C ks) (hno : ∀ k ∈ ks, k.type ≠ fcc 'r' 'i' 'n' 'f') {dref : Nat}
    {reserved : Bytes} {f : Video} (hf : f.Fits) (hh : HeadFits reserved dref) (hl : 86 + (wire ks).length < 2 ^ 32)
    (type : Nat) (want : Bool) :
    let b := clear (fcc 'r' 'e' 's' 'v') reserved dref f.wire ks
    resvFormat C D b = .ub ∧ resvScheme C D b want = .ub ∧ resvInfo C D b type = .ub := by
  have hfam := rothers_survives hk hno
  have hr := restricted_reads hfam.readable hh (type := fcc 'r' 'e' 's' 'v') (by unfold GoodType; decide) hf (by
    rw [wire_rothers]; exact hl)
  rw [wire_rothers, hfam.stay, vals_rothers] at hr
  have h := resv_of (D := D) hr
  have hg : getRinf (⟨fcc 'r' 'e' 's' 'v', reserved, dref, f, (vals ks).map Rx.other⟩ : Entry Video (Rx α)) = .ub := by
    unfold getRinf
    simp only
    rw [find_norinf]
  refine ⟨?_, ?_, ?_⟩
  · unfold resvFormat
    unfold clear
    rw [h, Res.ok_bind, hg]
    rfl
  · unfold resvScheme
    unfold clear
    rw [h, Res.ok_bind]
    unfold rGetScheme
    rw [hg]
    rfl
  · unfold resvInfo
    unfold clear
    rw [h, Res.ok_bind]
    unfold rGetInfo
    rw [hg]
    rfl

/-- An entry of any other type is refused. -/
theorem c71_resv_other {t : Nat} {v : β} {b : Bytes} (h : Reads D t v b) (ht : t ≠ fcc 'r' 'e' 's' 'v') (type : Nat) (want : Bool) :
    resvFormat C D b = .err .badParam ∧ resvScheme C D b want = .err .badParam ∧ resvInfo C D b type = .err .badParam := by
  obtain ⟨hd, h1, h2, r, h3⟩ := parse_of_reads h
  have : resv C D b = .err .badParam := by
    unfold resv
    rw [h3]
    simp only
    rw [if_neg (by rw [h1]; exact ht), h2]
  refine ⟨?_, ?_, ?_⟩
  · unfold resvFormat; rw [this]; rfl
  · unfold resvScheme; rw [this]; rfl
  · unfold resvInfo; rw [this]; rfl

/-! ## Examples -/

theorem no_sinf : ∀ k ∈ [esds, btrt], k.type ≠ fcc 's' 'i' 'n' 'f' := by decide
theorem no_rinf : ∀ k ∈ [esds, btrt], k.type ≠ fcc 'r' 'i' 'n' 'f' := by decide
/-- Selective encryption, keys of 16 bytes, counters of 8. -/
def fmt : ISFM := ⟨1, 16, 8⟩
theorem fmt_fits : FormatFits fmt := ⟨by decide, by decide, by decide⟩

example := c71_protect_visual family no_sinf (t := fcc 'm' 'p' '4' 'v') (dref := 1) (reserved := six) (salt := 77) (flags := 2)
  (url := some (ascii "http://kms")) (by decide) hd_fits ⟨rfl, by decide⟩ (by unfold GoodType; decide) fmt_fits
  (by unfold Plain; decide) (by decide) (by decide)
example := c71_protect_audio family no_sinf (t := fcc 'm' 'p' '4' 'a') (dref := 1) (reserved := six) (salt := 77) (flags := 4)
  (url := some (ascii "http://kms")) (by decide) (by decide) stereo_fits ⟨rfl, by decide⟩ (by unfold GoodType; decide) fmt_fits
  (by unfold Plain; decide) (by decide) (by decide)
example := c71_visual (D := leafs) family no_sinf (t := fcc 'm' 'p' '4' 'v') (dref := 1) (reserved := six) (salt := 77) (flags := 2)
  (url := some (ascii "http://kms")) (by decide) hd_fits ⟨rfl, by decide⟩ (by unfold GoodType; decide) fmt_fits
  (by unfold Plain; decide) (by decide) (by decide) true
example := c71_audio_partial (D := leafs) family no_sinf (t := fcc 'm' 'p' '4' 'a') (dref := 1) (reserved := six) (salt := 0) (flags := 4)
  (url := none) (by decide) (by decide) stereo_fits ⟨rfl, by decide⟩ (by unfold GoodType; decide) fmt_fits
  (by unfold Plain; decide) (by decide) (by decide) true
example := c71_twice (D := leafs) family no_sinf (t := fcc 'm' 'p' '4' 'v') (dref := 1) (reserved := six) (salt := 77) (salt' := 0)
  (flags := 2) (url := some (ascii "http://kms")) (url' := none) (by decide) hd_fits ⟨rfl, by decide⟩
  (by unfold GoodType; decide) fmt_fits fmt_fits (by unfold Plain; decide) (by unfold Plain; decide) (by decide) (by decide)
  (by decide) (by decide) true
/-- The flag of a track of hints. -/
example := c71_flags (C := leafs) 16 (by decide) (by decide) [1, 2, 3] fmt none 0
example := c71_other (C := leafs) (D := visual leafs) avc_survives.read (by decide) (by decide) true

/-- The boxes of ISMACryp in scheme information, after one of another type. -/
def mixed : List (Kid (Info Tree.Tree)) :=
  ⟨fcc 'x' 'x' 'x' 'x', .other (fcc 'x' 'x' 'x' 'x') (.leaf (fcc 'x' 'x' 'x' 'x') [] [3]), box (fcc 'x' 'x' 'x' 'x') [3]⟩ ::
    ismaKids fmt (some (ascii "http://kms" ++ [0])) (ascii "http://kms") 77

theorem other_reads : Reads (info leafs) (fcc 'x' 'x' 'x' 'x') (.other (fcc 'x' 'x' 'x' 'x') (.leaf (fcc 'x' 'x' 'x' 'x') [] [3]))
    (box (fcc 'x' 'x' 'x' 'x') [3]) := by
  refine reads_into (Info.other (fcc 'x' 'x' 'x' 'x'))
    (leaf_survives (data := [3]) (by unfold GoodType; decide) (by decide) (by decide)).read fun h ht => ?_
  show (if h.type = tKms then _ else if h.type = tSfm then _ else if h.type = tSlt then _ else _) = _
  rw [if_neg (by rw [ht]; decide), if_neg (by rw [ht]; decide), if_neg (by rw [ht]; decide), ht]

theorem mixed_reads : Readable (info leafs) mixed := by
  intro k hk
  rcases List.mem_cons.1 hk with rfl | h
  · exact other_reads
  · exact ismaKids_reads leafs fmt_fits (by unfold Plain; decide) (by decide) (by decide) k h

theorem mixed_first {t : Nat} (h : fcc 'x' 'x' 'x' 'x' ≠ t) :
    first t mixed = first t (ismaKids (α := Tree.Tree) fmt (some (ascii "http://kms" ++ [0])) (ascii "http://kms") 77) := by
  simp [first, mixed, h]

theorem scheme_fits : SchemeFits (fcc 'm' 'p' '4' 'v') (fcc 'i' 'A' 'E' 'C') 1 (ascii "http://x") :=
  ⟨by decide, by decide, by decide, by unfold Plain; decide⟩

example := c71_unlocked (D := leafs) family no_sinf (.video _ hd_fits) (reserved := six) (dref := 1) ⟨rfl, by decide⟩
  (by decide +kernel) true
example := c71_unlocked (D := leafs) family no_sinf (.audio _ stereo_fits) (reserved := six) (dref := 1) ⟨rfl, by decide⟩
  (by decide +kernel) false
example := c71_unprotect_visual (D := leafs) family no_sinf (reserved := six) (dref := 1) (salt := 77) scheme_fits mixed_reads
  (vk := (0, 0)) (u := ascii "http://kms") ((mixed_first (by decide)).trans (first_isma ..).1)
  (by unfold Plain; decide) (vx := (0, 0)) (x := fmt) ((mixed_first (by decide)).trans (first_isma ..).2.1)
  (.inr ((mixed_first (by decide)).trans ((first_isma ..).2.2.resolve_left fun h => absurd h.2 (by decide)))) hd_fits
  ⟨rfl, by decide⟩ (by unfold GoodType; decide) (by decide +kernel) true
example := c71_unprotect_audio (D := leafs) family no_sinf (reserved := six) (dref := 1) (salt := 77) scheme_fits mixed_reads
  (vk := (0, 0)) (u := ascii "http://kms") ((mixed_first (by decide)).trans (first_isma ..).1)
  (by unfold Plain; decide) (vx := (0, 0)) (x := fmt) ((mixed_first (by decide)).trans (first_isma ..).2.1)
  (.inr ((mixed_first (by decide)).trans ((first_isma ..).2.2.resolve_left fun h => absurd h.2 (by decide)))) stereo_fits
  ⟨rfl, by decide⟩ (by unfold GoodType; decide) (by decide +kernel) true

/-- A box of another type only. -/
def lone : List (Kid (Info Tree.Tree)) :=
  [⟨fcc 'x' 'x' 'x' 'x', .other (fcc 'x' 'x' 'x' 'x') (.leaf (fcc 'x' 'x' 'x' 'x') [] [3]), box (fcc 'x' 'x' 'x' 'x') [3]⟩]

theorem lone_reads : Readable (info leafs) lone := by
  intro k hk
  rw [List.mem_singleton.1 hk]
  exact other_reads

theorem lone_first {t : Nat} (h : fcc 'x' 'x' 'x' 'x' ≠ t) : first t lone = none := by simp [first, lone, h]

/-- An address with no NUL. -/
example := c71_open_address (D := leafs) family no_sinf (reserved := six) (dref := 1) (.video hd hd_fits) scheme_fits
  (infos := [⟨fcc 'i' 'K' 'M' 'S', .kms (0, 0) (some [65, 66]), fullBox (fcc 'i' 'K' 'M' 'S') 0 0 [65, 66]⟩]) (by
    intro k hk
    rw [List.mem_singleton.1 hk]
    exact kms_open leafs (by decide) (by decide))
  ⟨rfl, by decide⟩ (by decide +kernel) (vk := (0, 0)) (u := [65, 66]) (by simp [first]) (by unfold Plain; decide)

/-- Version 2 of the scheme. -/
example := c71_scheme (D := leafs) family no_sinf (reserved := six) (dref := 1) (.audio stereo stereo_fits)
  (t := fcc 'm' 'p' '4' 'a') (scheme := fcc 'i' 'A' 'E' 'C') (version := 2) (url := []) ⟨by decide, by decide, by decide, by unfold Plain; decide⟩
  mixed_reads ⟨rfl, by decide⟩ (by decide +kernel) (.inr (by decide)) true
example := c71_no_address (D := leafs) family no_sinf (reserved := six) (dref := 1) (.video hd hd_fits) scheme_fits lone_reads
  ⟨rfl, by decide⟩ (by decide +kernel) (lone_first (by decide))
example := c71_no_format (D := leafs) family no_sinf (reserved := six) (dref := 1) (.video hd hd_fits) scheme_fits lone_reads
  ⟨rfl, by decide⟩ (by decide +kernel) (lone_first (by decide))

/-- The three boxes in the reverse order. -/
def reversed : List (Kid (Part Tree.Tree)) :=
  (partKids (fcc 'm' 'p' '4' 'v') (fcc 'i' 'A' 'E' 'C') 1 (ascii "http://x")
    (schmBack (fcc 'i' 'A' 'E' 'C') 1 (ascii "http://x")) (vals (stay lone)) (wire lone)).reverse

theorem reversed_reads : Readable (part leafs) reversed := by
  intro k hk
  exact partKids_reads scheme_fits lone_reads (by decide +kernel) k (List.mem_reverse.1 hk)

example := c71_sinf_reads reversed_reads ⟨by decide, by decide⟩ (by decide +kernel)
/-- Two of each. -/
example := c71_sinf_bad (C := leafs) (ps := reversed ++ reversed)
  (fun k hk => (List.mem_append.1 hk).elim (reversed_reads k) (reversed_reads k)) (fun h => absurd h.2 (by decide))
  (by decide +kernel) [1, 2]

/-- 1024 samples per packet. -/
example := c71_protect_quicktime (C := leafs) (ks := [esds, btrt]) (t := fcc 'm' 'p' '4' 'a') (dref := 1) (reserved := six) (salt := 0)
  (flags := 4) (q := ⟨1024, 4, 4, 2⟩) (x := fmt) (url := none) (by decide) (by decide) quick_fits
  ⟨by decide, by decide, by decide, by decide⟩ ⟨rfl, by decide⟩ (by unfold GoodType; decide) (by decide) (by decide)

/-- Stereo video: the scheme `stvi`. -/
theorem stvi_fits : SchemeFits (fcc 'a' 'v' 'c' '1') (fcc 's' 't' 'v' 'i') 1 (ascii "http://x") :=
  ⟨by decide, by decide, by decide, by unfold Plain; decide⟩

example := c71_restrict (url := some (ascii "http://x")) (reserved := six) (dref := 1) family no_rinf stvi_fits hd_fits
  ⟨rfl, by decide⟩ (by decide)
example := c71_unrestrict (⟨fcc 'a' 'v' 'c' '1', six, 1, hd, [.other esds.val, .other btrt.val]⟩ : Entry Video (Rx Tree.Tree))
  (l := [esds.val, btrt.val]) rfl (fcc 's' 't' 'v' 'i') 1 none
example := c71_unrestrict_twice (⟨fcc 'a' 'v' 'c' '1', six, 1, hd, [.other esds.val, .other btrt.val]⟩ : Entry Video (Rx Tree.Tree))
  (l := [esds.val, btrt.val]) rfl (fcc 's' 't' 'v' 'i') 1 (fcc 's' 't' 'v' 'i') 2 none (some [65])
example := c71_resv_partial (D := leafs) (reserved := six) (dref := 1) family no_rinf stvi_fits mixed_reads hd_fits ⟨rfl, by decide⟩
  (by decide +kernel)
example := c71_resv_no_address (D := leafs) (t := fcc 'a' 'v' 'c' '1') (scheme := fcc 's' 't' 'v' 'i') (version := 1) (reserved := six)
  (dref := 1) family no_rinf ⟨by decide, by decide, by decide, by unfold Plain; decide⟩ lone_reads hd_fits ⟨rfl, by decide⟩
  (by decide +kernel)
example := c71_resv_no_info (D := leafs) (reserved := six) (dref := 1) family no_rinf stvi_fits lone_reads hd_fits ⟨rfl, by decide⟩
  (by decide +kernel) (type := fcc 's' 't' 'v' 'i') (by decide) (lone_first (by decide))
example := c71_resv_bare (D := leafs) (reserved := six) (dref := 1) family no_rinf hd_fits ⟨rfl, by decide⟩ (by decide)
  (fcc 's' 't' 'v' 'i') true
example := c71_resv_other (C := leafs) (D := visual leafs) avc_survives.read (by decide) (fcc 's' 't' 'v' 'i') false

end Verif.Prot
