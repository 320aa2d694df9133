import Verif.Spec.MediaAttr

/-!
# C96: attributes of a media are those set last, also after writing and reading
-/

namespace Verif.Attr

open Verif.Headers Verif.Rows Verif.Str

theorem typeVide_eq : typeVide = fcc 'v' 'i' 'd' 'e' := by decide
theorem typeSoun_eq : typeSoun = fcc 's' 'o' 'u' 'n' := by decide

/-- The boxes hold the attributes; `tags` are the extended languages set so far. -/
structure Rep (handler : Nat) (m : Media) (x : Attrs) (tags : List Bytes) : Prop where
  hdl : m.handler = handler
  mdhd : ∃ h, m.mdhd = some h ∧ h.version = 0 ∧ h.flags = 0 ∧ h.language = packed x.lang.1 x.lang.2.1 x.lang.2.2
  lang : Packable x.lang.1 ∧ Packable x.lang.2.1 ∧ Packable x.lang.2.2
  head : m.head = some (if handler = typeVide then .vmhd ⟨x.mode.1, x.mode.2.1, x.mode.2.2.1, x.mode.2.2.2⟩
    else if handler = typeSoun then .smhd ⟨u32i x.balance, 0⟩ else .other)
  mode : x.mode.1 < 4294967296 ∧ x.mode.2.1 < 65536 ∧ x.mode.2.2.1 < 65536 ∧ x.mode.2.2.2 < 65536
  balance : -32768 ≤ x.balance ∧ x.balance < 32768
  tgs : m.tags = tags.map (· ++ [0])
  tag : m.tag = m.tags.head?
  texts : ∀ s ∈ tags, Text s ∧ 13 + s.length < 4294967296

theorem rep_new (handler timeScale now : Nat) : Rep handler (new handler timeScale now) initial [] where
  hdl := rfl
  mdhd := ⟨_, rfl, rfl, rfl, show 21956 = packed initial.lang.1 initial.lang.2.1 initial.lang.2.2 by decide⟩
  lang := by unfold Packable initial; decide
  head := rfl
  mode := by decide
  balance := by decide
  tgs := rfl
  tag := rfl
  texts := nofun

variable {handler : Nat} {m : Media} {x : Attrs} {tags : List Bytes}

theorem balance_back {v : Int} (h1 : -32768 ≤ v) (h2 : v < 32768) :
    (if w16(u32i v) < 32768 then ((w16(u32i v) : Nat) : Int) else ((w16(u32i v) : Nat) : Int) - 65536) = v := by
  unfold u32i
  split <;> omega

theorem unpack {a b c : Nat} (ha : Packable a) (hb : Packable b) (hc : Packable c) : getLanguage (packed a b c) = (a, b, c) := by
  obtain ⟨l, _, h2, h3, _⟩ := c31_set_get ha hb hc
  rw [← h2]
  exact h3

theorem Rep.answers (h : Rep handler m x tags) : Answers handler m x tags.head? := by
  refine ⟨?_, ?_, ?_, ?_⟩
  · obtain ⟨hd, e1, _, _, e2⟩ := h.mdhd
    unfold getLang
    rw [e1]
    simp only
    rw [e2, unpack h.lang.1 h.lang.2.1 h.lang.2.2]
  · unfold getTag
    rw [h.tag, h.tgs]
    cases tags with
    | nil => rfl
    | cons s l =>
      simp only [List.map_cons, List.head?_cons]
      rw [cstr_text (h.texts s (List.mem_cons_self ..)).1]
  · unfold getMode
    rw [h.hdl, ← typeVide_eq, h.head]
    by_cases hv : handler = typeVide
    · rw [if_neg (by simpa using hv), if_pos hv, if_pos hv]
      have := h.mode
      simp only
      rw [Nat.mod_eq_of_lt this.2.1, Nat.mod_eq_of_lt this.2.2.1, Nat.mod_eq_of_lt this.2.2.2]
    · rw [if_pos hv, if_neg hv]
  · unfold getBalance
    rw [h.hdl, ← typeSoun_eq, h.head]
    by_cases hs : handler = typeSoun
    · rw [if_neg (by simpa using hs), if_pos hs, if_neg (by rw [hs]; decide), if_pos hs]
      simp only
      rw [balance_back h.balance.1 h.balance.2]
    · rw [if_pos hs, if_neg hs]

theorem call_mode (md r g b : Nat) : call m (.mode md r g b) = call.keep m (setMode m md r g b) := rfl
theorem call_balance (v : Int) : call m (.balance v) = call.keep m (setBalance m v) := rfl

theorem setMode_fit (h : Rep handler m x tags) (hh : handler = typeVide) (md r g b : Nat) :
    setMode m md r g b = .ok { m with head := some (.vmhd ⟨md, r, g, b⟩) } := by
  unfold setMode
  rw [if_neg (by rw [h.hdl]; exact not_not_intro hh), h.head, if_pos hh]

theorem setMode_unfit (h : Rep handler m x tags) (hh : ¬ handler = typeVide) (md r g b : Nat) :
    setMode m md r g b = .err .notImplemented := by
  unfold setMode
  rw [if_pos (by rw [h.hdl]; exact hh)]

theorem setBalance_fit (h : Rep handler m x tags) (hh : handler = typeSoun) (v : Int) :
    setBalance m v = .ok { m with head := some (.smhd ⟨u32i v, 0⟩) } := by
  unfold setBalance
  rw [if_neg (by rw [h.hdl]; exact not_not_intro hh), h.head, if_neg (by rw [hh]; decide), if_pos hh]

theorem setBalance_unfit (h : Rep handler m x tags) (hh : ¬ handler = typeSoun) (v : Int) :
    setBalance m v = .err .notImplemented := by
  unfold setBalance
  rw [if_pos (by rw [h.hdl]; exact hh)]

theorem call_rep (h : Rep handler m x tags) (o : Op) (hv : o.Valid) :
    ∃ m', call m o = .ok (m', if o.Fits handler then none else some .notImplemented) ∧
      Rep handler m' (x.apply handler o) (tags ++ tagsOf [o]) := by
  cases o with
  | lang a b c =>
    obtain ⟨hd, e1, e2, e3, e4⟩ := h.mdhd
    have hf : (Op.lang a b c).Fits handler := trivial
    refine ⟨{ m with mdhd := some { hd with language := packed a b c } }, ?_, ?_⟩
    · rw [if_pos hf]
      unfold call setLang
      rw [e1]
      simp only
      rw [setLanguage_eq hv.1 hv.2.1 hv.2.2]
      rfl
    · unfold Attrs.apply
      rw [if_pos hf]
      exact ⟨h.hdl, ⟨_, rfl, e2, e3, rfl⟩, hv, h.head, h.mode, h.balance, by simpa [tagsOf] using h.tgs, h.tag,
        by simpa [tagsOf] using h.texts⟩
  | tag s =>
    have hf : (Op.tag s).Fits handler := trivial
    refine ⟨(setTag m s).1, by rw [if_pos hf]; rfl, ?_⟩
    unfold Attrs.apply
    rw [if_pos hf]
    have key : (setTag m s).1 = { m with tags := m.tags ++ [s ++ [0]], tag := (m.tags ++ [s ++ [0]]).head? } := by
      unfold setTag addTag
      have := h.tag
      cases ht : m.tags with
      | nil => rw [ht] at this; rw [this]; rfl
      | cons y l =>
        rw [ht] at this
        rw [this]
        simp only [List.head?_cons, List.cons_append]
    rw [key]
    refine ⟨h.hdl, h.mdhd, h.lang, h.head, h.mode, h.balance, by simp [tagsOf, h.tgs], rfl, fun y hy => ?_⟩
    rcases List.mem_append.mp hy with hy | hy
    · exact h.texts y hy
    · simp only [tagsOf, List.filterMap_cons, List.filterMap_nil, List.mem_singleton] at hy
      subst hy
      exact hv
  | mode md r g b =>
    have ht : tags ++ tagsOf [.mode md r g b] = tags := by simp [tagsOf]
    rw [ht]
    have hfv : (Op.mode md r g b).Fits handler ↔ handler = typeVide := by rw [typeVide_eq]; exact Iff.rfl
    rw [call_mode]
    by_cases hh : handler = typeVide
    · rw [setMode_fit h hh, Attrs.apply, if_pos (hfv.mpr hh), if_pos (hfv.mpr hh)]
      exact ⟨_, rfl, h.hdl, h.mdhd, h.lang, by simp [hh], hv, h.balance, h.tgs, h.tag, h.texts⟩
    · rw [setMode_unfit h hh, Attrs.apply, if_neg (fun e => hh (hfv.mp e)), if_neg (fun e => hh (hfv.mp e))]
      exact ⟨m, rfl, h⟩
  | balance v =>
    have ht : tags ++ tagsOf [.balance v] = tags := by simp [tagsOf]
    rw [ht]
    have hfv : (Op.balance v).Fits handler ↔ handler = typeSoun := by rw [typeSoun_eq]; exact Iff.rfl
    rw [call_balance]
    by_cases hh : handler = typeSoun
    · rw [setBalance_fit h hh, Attrs.apply, if_pos (hfv.mpr hh), if_pos (hfv.mpr hh)]
      exact ⟨_, rfl, h.hdl, h.mdhd, h.lang, by simp [hh, typeSoun, typeVide], h.mode, hv, h.tgs, h.tag, h.texts⟩
    · rw [setBalance_unfit h hh, Attrs.apply, if_neg (fun e => hh (hfv.mp e)), if_neg (fun e => hh (hfv.mp e))]
      exact ⟨m, rfl, h⟩

theorem calls_rep : ∀ (os : List Op) {m : Media} {x : Attrs} {tags : List Bytes}, Rep handler m x tags → (∀ o ∈ os, o.Valid) →
    ∃ m', calls m os = .ok m' ∧ Rep handler m' (os.foldl (Attrs.apply handler) x) (tags ++ tagsOf os)
  | [], m, _, tags, h, _ => ⟨m, rfl, by simpa [tagsOf] using h⟩
  | o :: os, m, x, tags, h, hv => by
    obtain ⟨m1, h1, h2⟩ := call_rep h o (hv o (List.mem_cons_self ..))
    obtain ⟨m2, h3, h4⟩ := calls_rep os h2 fun o ho => hv o (List.mem_cons_of_mem _ ho)
    refine ⟨m2, ?_, ?_⟩
    · unfold calls
      rw [h1]
      exact h3
    · have : tagsOf (o :: os) = tagsOf [o] ++ tagsOf os := by
        unfold tagsOf
        rw [← List.filterMap_append]
        rfl
      rw [this, ← List.append_assoc]
      exact h4

/-- A call succeeds exactly if it is for media of this kind, whatever was called before. -/
theorem c96_results (timeScale now : Nat) (os : List Op) (hv : ∀ o ∈ os, o.Valid) (o : Op) (ho : o.Valid) :
    ∃ m m', calls (new handler timeScale now) os = .ok m ∧
      call m o = .ok (m', if o.Fits handler then none else some .notImplemented) := by
  obtain ⟨m, h1, h2⟩ := calls_rep os (rep_new handler timeScale now) hv
  obtain ⟨m', h3, _⟩ := call_rep h2 o ho
  exact ⟨m, m', h1, h3⟩

/-- After any calls the getters answer what was set last; the extended language, what was set first. -/
theorem c96_history (timeScale now : Nat) (os : List Op) (hv : ∀ o ∈ os, o.Valid) :
    ∃ m, calls (new handler timeScale now) os = .ok m ∧
      Answers handler m (os.foldl (Attrs.apply handler) initial) (tagsOf os).head? := by
  obtain ⟨m, h1, h2⟩ := calls_rep os (rep_new handler timeScale now) hv
  exact ⟨m, h1, by simpa using h2.answers⟩

theorem tag_last : ∀ (os : List Op) (x : Attrs), (tagsOf os).length ≤ 1 →
    (os.foldl (Attrs.apply handler) x).tag = (tagsOf os).head?.or x.tag
  | [], _, _ => rfl
  | o :: os, x, h => by
    rw [List.foldl_cons]
    cases o with
    | tag s =>
      have hn : tagsOf os = [] := by
        have : tagsOf (.tag s :: os) = s :: tagsOf os := rfl
        rw [this, List.length_cons] at h
        exact List.eq_nil_of_length_eq_zero (by omega)
      rw [tag_last os _ (by rw [hn]; exact Nat.zero_le _), hn]
      show (x.apply handler (.tag s)).tag = _
      unfold Attrs.apply
      rw [if_pos (show (Op.tag s).Fits handler from trivial)]
      simp [tagsOf]
    | lang a b c =>
      rw [tag_last os _ h]
      congr 1
    | mode md r g b =>
      rw [tag_last os _ h]
      congr 1
      unfold Attrs.apply
      split <;> rfl
    | balance v =>
      rw [tag_last os _ h]
      congr 1
      unfold Attrs.apply
      split <;> rfl

/-- What is missing is a second extended language, see `c96_not_tag`. -/
theorem c96_last_partial (timeScale now : Nat) (os : List Op) (hv : ∀ o ∈ os, o.Valid) (h1 : (tagsOf os).length ≤ 1) :
    ∃ m, calls (new handler timeScale now) os = .ok m ∧
      Answers handler m (os.foldl (Attrs.apply handler) initial) (os.foldl (Attrs.apply handler) initial).tag := by
  obtain ⟨m, h2, h3⟩ := c96_history (handler := handler) timeScale now os hv
  refine ⟨m, h2, ?_⟩
  rw [tag_last os _ h1, show initial.tag = none from rfl, Option.or_none]
  exact h3

/-! ## Writing and reading -/

theorem put16_mod (v : Nat) : put16 v = put16 (v % 65536) := by
  unfold put16
  have h : ∀ x : Nat, x &&& 0xFF = x % 256 := fun x => Nat.and_two_pow_sub_one_eq_mod x 8
  rw [h, h, h, h, Nat.shiftRight_eq_div_pow, Nat.shiftRight_eq_div_pow]
  have h1 : v / 2 ^ 8 % 256 = v % 65536 / 2 ^ 8 % 256 := by omega
  have h2 : v % 256 = v % 65536 % 256 := by omega
  rw [h1, h2]

/-- The header as it comes back. -/
def keptHead : Head → Option Head
  | .vmhd x => some (.vmhd ⟨x.mode % 65536, x.red % 65536, x.green % 65536, x.blue % 65536⟩)
  | .smhd x => some (.smhd ⟨x.balance % 65536, x.reserved % 65536⟩)
  | .other => none

theorem readAll_append (a b : List (Nat × Bytes)) : ∀ (m : Media), readAll m (a ++ b) = (readAll m a).bind fun m => readAll m b := by
  induction a with
  | nil => intro m; rfl
  | cons x a ih =>
    intro m
    rw [List.cons_append]
    show (readBox m x).bind _ = ((readBox m x).bind _).bind _
    cases readBox m x with
    | ok m' => exact ih m'
    | err e => rfl
    | ub => rfl

theorem head_back (hd : Head) (m : Media) (hm : m.head = none) :
    ∃ bs, writeHead (some hd) = .ok bs ∧ readAll m bs = .ok { m with head := keptHead hd } := by
  cases hd with
  | other => exact ⟨[], rfl, by unfold keptHead; rw [← hm]; rfl⟩
  | vmhd v =>
    have e : v.serialize 0 1 = (Vmhd.mk (v.mode % 65536) (v.red % 65536) (v.green % 65536) (v.blue % 65536)).serialize 0 1 := by
      unfold Vmhd.serialize
      rw [put16_mod v.mode, put16_mod v.red, put16_mod v.green, put16_mod v.blue]
    have rt := c68_vmhd 0 1 ⟨v.mode % 65536, v.red % 65536, v.green % 65536, v.blue % 65536⟩ (by decide) (by decide)
      (Nat.mod_lt _ (by decide)) (Nat.mod_lt _ (by decide)) (Nat.mod_lt _ (by decide)) (Nat.mod_lt _ (by decide))
    obtain ⟨hh, hr⟩ := rt.read []
    rw [List.append_nil] at hr
    refine ⟨_, by unfold writeHead; simp only; rw [e, rt.write]; rfl, ?_⟩
    show (readBox m (typeVmhd, _)).bind _ = _
    unfold readBox
    rw [if_neg (show ¬ typeVmhd = typeMdhd by decide), if_pos rfl]
    simp only
    rw [hr]
    show (setHead m _).bind _ = _
    unfold setHead
    rw [hm]
    rfl
  | smhd v =>
    have e : v.serialize 0 0 = (Smhd.mk (v.balance % 65536) (v.reserved % 65536)).serialize 0 0 := by
      unfold Smhd.serialize
      rw [put16_mod v.balance, put16_mod v.reserved]
    have rt := c68_smhd 0 0 ⟨v.balance % 65536, v.reserved % 65536⟩ (by decide) (by decide)
      (Nat.mod_lt _ (by decide)) (Nat.mod_lt _ (by decide))
    obtain ⟨hh, hr⟩ := rt.read []
    rw [List.append_nil] at hr
    refine ⟨_, by unfold writeHead; simp only; rw [e, rt.write]; rfl, ?_⟩
    show (readBox m (typeSmhd, _)).bind _ = _
    unfold readBox
    rw [if_neg (show ¬ typeSmhd = typeMdhd by decide), if_neg (show ¬ typeSmhd = typeVmhd by decide), if_pos rfl]
    simp only
    rw [hr]
    show (setHead m _).bind _ = _
    unfold setHead
    rw [hm]
    rfl

theorem tags_back : ∀ (tags : List Bytes), (∀ s ∈ tags, Text s ∧ 13 + s.length < 4294967296) →
    ∃ bs, writeTags (tags.map (· ++ [0])) = .ok bs ∧ ∀ m : Media,
      readAll m bs = match m.tag, tags with
        | _, [] => .ok m
        | none, [s] => .ok { m with tag := some (s ++ [0]), tags := m.tags ++ [s ++ [0]] }
        | _, _ => .err .badData
  | [], _ => ⟨[], rfl, fun m => by cases m.tag <;> rfl⟩
  | s :: l, h => by
    obtain ⟨hs, hn⟩ := h s (List.mem_cons_self ..)
    obtain ⟨bs, h1, h2⟩ := tags_back l fun y hy => h y (List.mem_cons_of_mem _ hy)
    have rt := c69_elng 0 0 s (by decide) (by decide) hs hn
    have hz : elngSize s = 13 + s.length := by unfold elngSize; omega
    obtain ⟨hh, hr⟩ := rt.read []
    rw [List.append_nil] at hr
    refine ⟨(typeElng, fullBox (fcc 'e' 'l' 'n' 'g') 0 0 (s ++ [0])) :: bs, ?_, fun m => ?_⟩
    · rw [List.map_cons]
      unfold writeTags
      rw [cstr_text hs]
      simp only
      rw [hz, rt.write, h1]
      rfl
    · show (readBox m (typeElng, _)).bind _ = _
      unfold readBox
      rw [if_neg (show ¬ typeElng = typeMdhd by decide), if_neg (show ¬ typeElng = typeVmhd by decide),
        if_neg (show ¬ typeElng = typeSmhd by decide), if_pos rfl]
      simp only
      rw [hr]
      show ((match addTag m (s ++ [0]) with | (m, none) => Res.ok m | (_, some e) => .err e).bind fun m => readAll m bs) = _
      unfold addTag
      cases ht : m.tag with
      | some t => cases l <;> rfl
      | none =>
        show readAll _ bs = _
        rw [h2]
        cases l with
        | nil => rfl
        | cons y l => cases l <;> rfl

/-- What is written is refused if the extended language was set more than once; else all attributes come back, of a graphics
mode the lower 16 bits. -/
theorem c96_saved (timeScale now : Nat) (os : List Op) (hv : ∀ o ∈ os, o.Valid) :
    ∃ m bs, calls (new handler timeScale now) os = .ok m ∧ write m = .ok bs ∧
      ((tagsOf os).length ≤ 1 → ∃ m', read handler bs = .ok m' ∧
        Answers handler m' { os.foldl (Attrs.apply handler) initial with
          mode := ((os.foldl (Attrs.apply handler) initial).mode.1 % 65536, (os.foldl (Attrs.apply handler) initial).mode.2) }
          (os.foldl (Attrs.apply handler) initial).tag) ∧
      (2 ≤ (tagsOf os).length → read handler bs = .err .badData) := by
  obtain ⟨m, h1, h2⟩ := calls_rep os (rep_new handler timeScale now) hv
  rw [List.nil_append] at h2
  have hlast := tag_last (handler := handler) os initial
  generalize os.foldl (Attrs.apply handler) initial = x at *
  generalize tagsOf os = tags at *
  obtain ⟨hd, e1, e2, e3, e4⟩ := h2.mdhd
  obtain ⟨rt, _⟩ := c44_media_header hd (by rw [e2]; decide) (by rw [e3]; decide)
  obtain ⟨hh, hr⟩ := rt.read []
  rw [List.append_nil] at hr
  obtain ⟨b2, w2, r2⟩ := head_back (if handler = typeVide then .vmhd ⟨x.mode.1, x.mode.2.1, x.mode.2.2.1, x.mode.2.2.2⟩
    else if handler = typeSoun then .smhd ⟨u32i x.balance, 0⟩ else .other) ⟨handler, some (keptMdhd hd), none, none, []⟩ rfl
  obtain ⟨b3, w3, r3⟩ := tags_back tags h2.texts
  have hread : ∀ b, b = mdhdLayout hd → readAll ⟨handler, none, none, none, []⟩ ([(typeMdhd, b)] ++ b2 ++ b3) =
      readAll { (⟨handler, some (keptMdhd hd), none, none, []⟩ : Media) with head := keptHead (if handler = typeVide then
        .vmhd ⟨x.mode.1, x.mode.2.1, x.mode.2.2.1, x.mode.2.2.2⟩ else if handler = typeSoun then .smhd ⟨u32i x.balance, 0⟩ else .other) } b3 := by
    intro b hb
    subst hb
    rw [readAll_append, readAll_append]
    show (((readBox _ (typeMdhd, _)).bind _).bind _).bind _ = _
    unfold readBox
    rw [if_pos rfl]
    simp only
    rw [hr]
    show ((readAll _ b2).bind _) = _
    rw [r2]
    rfl
  refine ⟨m, [(typeMdhd, mdhdLayout hd)] ++ b2 ++ b3, h1, ?_, fun hl => ?_, fun hl => ?_⟩
  · unfold write
    rw [e1]
    simp only
    rw [rt.write, h2.head, h2.tgs, w2, w3]
    rfl
  · unfold read
    rw [hread _ rfl, r3]
    have hlang : getLanguage (keptMdhd hd).language = x.lang := by
      have hp := h2.lang
      have : (keptMdhd hd).language = packed x.lang.1 x.lang.2.1 x.lang.2.2 := by
        show hd.language % 2 ^ 16 = _
        rw [e4]
        unfold Packable at hp
        unfold packed
        omega
      rw [this, unpack hp.1 hp.2.1 hp.2.2]
    have hother : ∀ m' : Media, m'.handler = handler → m'.mdhd = some (keptMdhd hd) → m'.head = keptHead (if handler = typeVide then
        .vmhd ⟨x.mode.1, x.mode.2.1, x.mode.2.2.1, x.mode.2.2.2⟩ else if handler = typeSoun then .smhd ⟨u32i x.balance, 0⟩ else .other) →
        getTag m' = .ok x.tag → Answers handler m' { x with mode := (x.mode.1 % 65536, x.mode.2) } x.tag := by
      intro m' k1 k2 k3 k4
      refine ⟨?_, k4, ?_, ?_⟩
      · unfold getLang; rw [k2]; simp only; rw [hlang]
      · unfold getMode
        rw [k1, ← typeVide_eq, k3]
        by_cases hv : handler = typeVide
        · rw [if_neg (by simpa using hv), if_pos hv, if_pos hv]
          have := h2.mode
          show Res.ok (_, _, _, _) = Res.ok (_, _)
          simp only
          rw [Nat.mod_mod, Nat.mod_mod, Nat.mod_mod, Nat.mod_eq_of_lt this.2.1, Nat.mod_eq_of_lt this.2.2.1, Nat.mod_eq_of_lt this.2.2.2]
        · rw [if_pos hv, if_neg hv]
      · unfold getBalance
        rw [k1, ← typeSoun_eq, k3]
        by_cases hs : handler = typeSoun
        · rw [if_neg (by simpa using hs), if_pos hs, if_neg (by rw [hs]; decide), if_pos hs]
          unfold keptHead
          simp only
          rw [Nat.mod_mod, balance_back h2.balance.1 h2.balance.2]
        · rw [if_pos hs, if_neg hs]
    have htag := hlast hl
    rw [show initial.tag = none from rfl, Option.or_none] at htag
    match tags, hl with
    | [], _ => exact ⟨_, rfl, hother _ rfl rfl rfl (by rw [htag]; rfl)⟩
    | [s], _ =>
      refine ⟨_, rfl, hother _ rfl rfl rfl ?_⟩
      rw [htag]
      show (match cstr (s ++ [0]) with | none => Res.ub | some s => .ok (some s)) = _
      rw [cstr_text (h2.texts s (List.mem_cons_self ..)).1]
      rfl
  · unfold read
    rw [hread _ rfl, r3]
    match tags, hl with
    | _ :: _ :: _, _ => rfl

/-! ## Examples, and where the code does not do it -/

def en : Bytes := [101, 110]
def de : Bytes := [100, 101]

example : ∀ o ∈ [Op.lang 100 101 117, .tag en, .mode 0x24 1 2 65535, .balance (-256)], o.Valid := by
  intro o ho
  simp only [List.mem_cons, List.not_mem_nil, or_false] at ho
  rcases ho with rfl | rfl | rfl | rfl <;> simp [Op.Valid, Packable, Text, en]

example : ((calls (new typeSoun 600 7) [.lang 100 101 117, .tag en, .mode 0x24 1 2 65535, .balance 5, .balance (-256)]).bind fun m =>
    (write m).bind fun bs => (read typeSoun bs).bind fun m => getBalance m) = .ok (-256) := by decide +kernel

/-- A second extended language is taken without an error but not returned, and the file that is written cannot be read. -/
theorem c96_not_tag : ((calls (new typeVide 600 7) [.tag en, .tag de]).bind getTag) = .ok (some en) ∧
    (call (setTag (new typeVide 600 7) en).1 (.tag de)).bind (fun r => .ok r.2) = .ok none ∧
    ((calls (new typeVide 600 7) [.tag en, .tag de]).bind fun m => (write m).bind fun bs => read typeVide bs) = .err .badData := by
  decide +kernel

/-- A graphics mode of more than 16 bits is returned until it is written. -/
theorem c96_not_mode : ((calls (new typeVide 600 7) [.mode 65537 0 0 0]).bind getMode) = .ok (65537, 0, 0, 0) ∧
    ((calls (new typeVide 600 7) [.mode 65537 0 0 0]).bind fun m => (write m).bind fun bs => (read typeVide bs).bind getMode) =
      .ok (1, 0, 0, 0) := by decide +kernel

/-- A media of video whose file has another media header is read beyond that header. -/
theorem c96_not_header : ((writeHead (some (.smhd ⟨0, 0⟩))).bind fun bs => (read typeVide bs).bind getMode) = .ub := by decide +kernel

end Verif.Attr
