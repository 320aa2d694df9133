import Verif.Spec.Ipmp
import Verif.Lemmas.Od

/-! # Lemmas on tools of IPMP extensions -/

namespace Verif.Ipmp

open Verif.Descr Verif.Od

/-! ## Writers that fit -/

/-- `w` appends exactly `bs` when they fit in the declared size. -/
def Fits (w : W) (bs : Bytes) : Prop :=
  ∀ s : WS, s.out.length + bs.length ≤ s.size → s.size < 4294967296 → w s = .ok { s with out := s.out ++ bs }

theorem fits_of {w : W} {bs : Bytes} (h : Emits w bs) : Fits w bs := by
  intro s h1 h2
  rw [h s (by omega) (by omega), if_pos h1]

theorem Fits.seq {a b : W} {x y : Bytes} (ha : Fits a x) (hb : Fits b y) : Fits (a ;; b) (x ++ y) := by
  intro s h1 h2
  rw [List.length_append] at h1
  unfold W.seq
  rw [ha s (by omega) h2]
  simp only [Res.bind]
  have := hb ⟨s.out ++ x, s.size⟩ (by simp only [List.length_append]; omega) h2
  simp only [List.append_assoc] at this
  exact this

theorem Fits.each {α : Type} {f : α → W} {g : α → Bytes} (xs : List α) (h : ∀ x ∈ xs, Fits (f x) (g x)) :
    Fits (W.each f xs) (xs.flatMap g) := by
  induction xs with
  | nil => exact fits_of emits_skip
  | cons x xs ih =>
    simp only [W.each, List.flatMap_cons]
    exact (h x (by simp)).seq (ih fun y hy => h y (by simp [hy]))

theorem fits_inner {size : Nat} {w : W} {bs : Bytes} (h : runW size w = .ok bs) : Fits (inner size w) bs := by
  intro s _ _
  unfold inner
  rw [h]
  rfl

theorem Fits.run {w : W} {bs : Bytes} (h : Fits w bs) {size : Nat} (hs : bs.length = size)
    (hl : size < 4294967296) : runW size w = .ok bs := by
  unfold runW
  rw [h ⟨[], size⟩ (by simp [hs]) hl]
  simp

theorem Fits.runFull {w : W} {bs : Bytes} (h : Fits w bs) {size : Nat} (hs : bs.length = size)
    (hl : size < 4294967296) : runW size (w ;; checkFull) = .ok bs := by
  unfold runW W.seq
  rw [h ⟨[], size⟩ (by simp [hs]) hl]
  simp [Res.bind, checkFull, hs]

theorem seq_assoc (a b c : W) : ((a ;; b) ;; c) = (a ;; b ;; c) := by
  funext s
  unfold W.seq
  cases a s <;> rfl

/-! ## Lengths -/

theorem idBytes_length (i : Id) : (idBytes i).length = 16 := by simp [idBytes, be_length]

theorem arrayBytes_length (b : Bytes) : (arrayBytes b).length = b.length + 4 := by
  simp [arrayBytes, be_length]; omega

theorem altBytes_length (l : List Id) : (altBytes l).length = if l.length ≠ 0 then 1 + 16 * l.length else 0 := by
  unfold altBytes
  cases l with
  | nil => rfl
  | cons a l =>
    rw [if_neg (by simp), if_pos (by simp), List.length_append, be_length,
      flatMap_length_const (c := 16) _ fun x _ => idBytes_length x]

theorem paramBytes_length (p : Option Bytes) :
    (paramBytes p).length = match p with | none => 0 | some p => 4 + p.length := by
  cases p with
  | none => rfl
  | some p => simp only [paramBytes, arrayBytes_length]; omega

theorem urls_length (l : List Bytes) : (l.flatMap arrayBytes).length = (l.map fun u => u.length + 4).sum := by
  induction l with
  | nil => rfl
  | cons a l ih => rw [List.flatMap_cons, List.length_append, ih, List.map_cons, List.sum_cons, arrayBytes_length]

theorem toolPayload_length (t : Tool) : (toolPayload t).length =
    17 + (if t.alternates.length ≠ 0 then 1 + 16 * t.alternates.length else 0) +
      (match t.param with | none => 0 | some p => 4 + p.length) + 1 + (t.urls.map fun u => u.length + 4).sum := by
  unfold toolPayload
  simp only [List.length_append, be_length, idBytes_length, altBytes_length, paramBytes_length, urls_length]
  omega

theorem toolSize_eq {t : Tool} (h : (toolPayload t).length < 2 ^ 28) : toolSize t = 5 + (toolPayload t).length := by
  unfold toolSize
  rw [toolPayload_length] at h ⊢
  cases hp : t.param with
  | none => simp only [hp] at h ⊢; omega
  | some p => simp only [hp] at h ⊢; omega

theorem toolBytes_length (t : Tool) : (toolBytes t).length = 5 + (toolPayload t).length := by
  unfold toolBytes; rw [descr_length (by omega)]

theorem xBytes_length (d : XData) : (xBytes d).length = 6 + d.data.length := by
  unfold xBytes; rw [descr_length (by omega), List.length_append, be_length]; omega

theorem xSize_eq {d : XData} (h : XOk d) : xSize d = (xBytes d).length := by
  have := h.size
  rw [xBytes_length]
  unfold xSize
  omega

theorem sizeX_eq {l : List XData} (h : ∀ d ∈ l, XOk d) : sizeAll xSize l = (l.flatMap xBytes).length := by
  unfold sizeAll
  induction l with
  | nil => rfl
  | cons a l ih =>
    rw [List.map_cons, List.sum_cons, List.flatMap_cons, List.length_append, ih fun x hx => h x (by simp [hx]),
      xSize_eq (h a (by simp))]

theorem initBytes_length (i : Init) : (initBytes i).length = 3 + (i.data.flatMap xBytes).length := by
  simp only [initBytes, List.length_append, be_length]; omega

theorem initSize_eq {i : Init} (hd : ∀ d ∈ i.data, XOk d) (h : (initBytes i).length < 2 ^ 28) :
    initSize i = (initBytes i).length := by
  unfold initSize
  rw [initBytes_length] at h ⊢
  rw [sizeX_eq hd]
  omega

/-! ## Tools -/

theorem emits_id (i : Id) : Emits (putId i) (idBytes i) := (emits_put64 _).seq (emits_put64 _)

theorem emits_array (b : Bytes) : Emits (putArray b) (arrayBytes b) := (emits_put32 _).seq (emits_bytes _)

theorem emits_alts (l : List Id) :
    Emits (if l.length > 0 then put8 l.length ;; W.each putId l else W.skip) (altBytes l) := by
  unfold altBytes
  cases l with
  | nil => exact emits_skip
  | cons a l =>
    rw [if_pos (by simp), if_neg (by simp)]
    exact (emits_put8 _).seq (Emits.each _ fun x _ => emits_id x)

theorem emits_param (p : Option Bytes) :
    Emits (match p with | none => W.skip | some p => putArray p) (paramBytes p) := by
  cases p with
  | none => exact emits_skip
  | some p => exact emits_array p

theorem flags_eq (t : Tool) :
    (if t.alternates.length > 0 then 1 else 0) * 0x80 + (if t.param.isSome then 1 else 0) * 0x40 = toolFlags t := by
  unfold toolFlags
  cases t.alternates <;> cases t.param <;> simp

/-- Whatever the counts. -/
theorem run_tool {t : Tool} (h : (toolPayload t).length < 2 ^ 28) :
    runW (toolSize t) (putTool t) = .ok (toolBytes t) := by
  unfold putTool
  rw [toolSize_eq h, flags_eq]
  have hb := (emits_id t.id).seq ((emits_put8 (toolFlags t)).seq ((emits_alts t.alternates).seq
    ((emits_param t.param).seq ((emits_put8 t.urls.length).seq (Emits.each t.urls fun u _ => emits_array u)))))
  have := (fits_of (emits_descr (tag := 0x63) h hb)).runFull (size := 5 + (toolPayload t).length)
    (toolBytes_length t) (by omega)
  simp only [seq_assoc] at this
  exact this

theorem parses_id {i : Id} (h : IdOk i) : Parses getId (idBytes i) i :=
  (parses_get64' h.upper).bind ((parses_get64' h.lower).bind_nil (parses_pure _))

theorem parses_array {b : Bytes} (h : b.length < 4294967296) : Parses getArray (arrayBytes b) b :=
  (parses_get32' h).bind (parses_getBytes rfl)

theorem parses_flag {v : Nat} (h : v < 256) : Parses (getFlag (.ok ())) (be 1 v) v := by
  refine (parses_get8' h).bind_nil ?_
  intro r k
  rfl

theorem flags_lt (t : Tool) : toolFlags t < 256 := by
  unfold toolFlags; split <;> split <;> omega

theorem flags_alt (t : Tool) : toolFlags t &&& 0x80 ≠ 0 ↔ t.alternates ≠ [] := by
  unfold toolFlags; split <;> split <;> simp_all

theorem flags_param (t : Tool) : toolFlags t &&& 0x40 ≠ 0 ↔ t.param ≠ none := by
  unfold toolFlags; split <;> split <;> simp_all

theorem mem_le {b : Bytes} {l : List Bytes} (h : b ∈ l) : b.length ≤ (l.flatMap arrayBytes).length := by
  have := mem_flat_le (f := arrayBytes) h
  rw [arrayBytes_length] at this
  omega

theorem parsesAt_check {k size : Nat} {α : Type} {a : α} (h : k = size) :
    ParsesAt (do checkRead size; pure a) k [] a := by
  intro r
  simp only [P.bind_apply, checkRead, P.bytesRead]
  rw [if_pos h]
  rfl

theorem parsesAt_tool {t : Tool} (h : ToolOk t) :
    ParsesAt (getTool (.ok ()) (5 + (toolPayload t).length)) 5 (toolPayload t) t := by
  have hs := h.size
  have e : (toolPayload t).length = 16 + (1 + ((altBytes t.alternates).length + ((paramBytes t.param).length +
    (1 + (t.urls.flatMap arrayBytes).length)))) := by
    unfold toolPayload
    simp only [List.length_append, be_length, idBytes_length]
  unfold getTool
  refine ParsesAt.of_eq (((parses_id h.id).at _).bind (((parses_flag (flags_lt t)).at _).bind
    (ParsesAt.bind (a := t.alternates) (x := altBytes t.alternates) ?_ (ParsesAt.bind (a := t.param) (x := paramBytes t.param) ?_
    (((parses_get8' h.urlsCount).at _).bind (ParsesAt.bind_nil (a := t.urls) (x := t.urls.flatMap arrayBytes) ?_
      (parsesAt_check (a := t) ?_))))))) rfl rfl
  · unfold getIf altBytes
    by_cases ha : t.alternates = []
    · rw [if_neg (by rw [flags_alt]; simp [ha]), if_pos ha, ha]
      exact (parses_pure _).at _
    · rw [if_pos ((flags_alt t).2 ha), if_neg ha]
      have := parses_repeat_map t.alternates idBytes id (fun x hx => parses_id (h.alternates x hx)) rfl
      rw [List.map_id] at this
      exact ((parses_get8' h.alternatesCount).bind this).at _
  · unfold getIf
    cases hp : t.param with
    | none =>
      rw [if_neg (by rw [flags_param]; simp [hp])]
      exact (parses_pure _).at _
    | some p =>
      rw [if_pos ((flags_param t).2 (by simp [hp]))]
      refine (Parses.map some (parses_array (b := p) ?_)).at _
      have : (paramBytes t.param).length = p.length + 4 := by rw [hp]; exact arrayBytes_length p
      omega
  · have := parses_repeat_map t.urls arrayBytes id (fun x hx => parses_array (by have := mem_le hx; omega)) rfl
    rw [List.map_id] at this
    exact this.at _
  · simp only [be_length, idBytes_length]
    omega

theorem parses_tool {get : Nat → Nat → P Tool} {t : Tool} (hg : ∀ n, get 0x63 n = getTool (.ok ()) n)
    (h : ToolOk t) : Parses (getDesc get) (toolBytes t) t := by
  have hs := h.size
  refine parses_desc (by omega) (by omega) (by omega) (by omega) ?_
  rw [hg]
  exact parsesAt_tool h

theorem Parses.parse {α : Type} {p : P α} {bs : Bytes} {v : α} (h : Parses p bs v) : parse p bs = .ok v := by
  unfold Ipmp.parse
  have := h [] 0
  rw [List.append_nil] at this
  rw [this]
  rfl

/-! ## Lists -/

theorem run_list {l : List Tool} (h : ∀ t ∈ l, ToolOk t) (hl : (l.flatMap toolBytes).length < 2 ^ 28) :
    runW (listSize l) (putList l) = .ok (listBytes l) := by
  have hw : ∀ t ∈ l, Written toolSize putTool toolBytes t := fun t ht =>
    ⟨run_tool (h t ht).size, by rw [toolBytes_length, toolSize_eq (h t ht).size]⟩
  have e : listSize l = 5 + (l.flatMap toolBytes).length := by
    unfold listSize
    rw [size_all hw]
    omega
  unfold putList
  rw [e]
  exact (emits_descr hl (emits_all hw)).run_ok (by rw [descr_length (by omega)]) (by omega)

theorem foldl_snoc {α : Type} (l s : List α) : l.foldl (fun l a => l ++ [a]) s = s ++ l := by
  induction l generalizing s with
  | nil => simp
  | cons a l ih => rw [List.foldl_cons, ih]; simp

theorem parses_list {l : List Tool} (h : ∀ t ∈ l, ToolOk t) (hl : (l.flatMap toolBytes).length < 2 ^ 28) :
    Parses (getDesc (asList (.ok ()))) (listBytes l) l := by
  refine parses_desc (by omega) (by omega) (by omega) (by omega) ?_
  have := parsesAt_all (size := 1 + 4 + (l.flatMap toolBytes).length) (k := 1 + 4)
    (get := getToolOr (.ok ()) .invalidMedia) (add := fun (l : List Tool) t => l ++ [t]) (bytes := toolBytes) (v := id) (cs := l)
    (s := [])
    (fun t ht => ⟨parses_tool (fun n => rfl) (h t ht), by rw [toolBytes_length]; omega⟩) rfl
  rw [List.map_id, foldl_snoc] at this
  exact this

/-! ## IPMP data -/

theorem run_x {d : XData} (h : XOk d) : runW (xSize d) (putX d) = .ok (xBytes d) := by
  have hs := h.size
  have e : xSize d = 5 + (be 1 d.version ++ d.data).length := by
    rw [xSize_eq h, xBytes_length, List.length_append, be_length]; omega
  unfold putX
  rw [e]
  refine (emits_descr (p := be 1 d.version ++ d.data) ?_ ((emits_put8 _).seq (emits_bytes _))).run_ok ?_ ?_
  · rw [List.length_append, be_length]; omega
  · rw [descr_length (by omega)]
  · rw [List.length_append, be_length]; omega

theorem parses_x {d : XData} (h : XOk d) : Parses getX (xBytes d) d := by
  have hs := h.size
  have hl : (be 1 d.version ++ d.data).length = 1 + d.data.length := by rw [List.length_append, be_length]
  refine parses_desc (by omega) (by rw [hl]; omega) (by rw [hl]; omega) h.tag ?_
  refine ((parses_get8' (by rw [h.version]; omega)).at _).bind ?_
  rw [if_pos h.version]
  refine parsesAt_bytesRead ?_
  have e : w32(1 + 4 + (be 1 d.version ++ d.data).length + (4294967296 - (1 + 4 + (be 1 d.version).length))) =
      d.data.length := by
    rw [hl, be_length]; omega
  rw [e]
  exact (Parses.map (fun data => (⟨d.tag, d.version, data⟩ : XData)) (parses_getBytes rfl)).at _

theorem parses_xs {l : List XData} (h : ∀ d ∈ l, XOk d) : Parses (P.repeat l.length getX) (l.flatMap xBytes) l := by
  have := parses_repeat_map l xBytes id (fun x hx => parses_x (h x hx)) rfl
  rwa [List.map_id] at this

theorem fits_xs {l : List XData} (h : ∀ d ∈ l, XOk d) :
    Fits (W.each (fun d => inner (xSize d) (putX d)) l) (l.flatMap xBytes) :=
  Fits.each l fun d hd => fits_inner (run_x (h d hd))

/-! ## Initialisation -/

/-- Whatever the count. -/
theorem run_init {i : Init} (hd : ∀ d ∈ i.data, XOk d) (h : (initBytes i).length < 2 ^ 28) :
    runW (initSize i) (putInit i) = .ok (initBytes i) := by
  rw [initSize_eq hd h]
  exact ((fits_of (emits_put8 _)).seq ((fits_of (emits_put8 _)).seq ((fits_of (emits_put8 _)).seq (fits_xs hd)))).run
    rfl (by omega)

theorem parses_init {i : Init} (h : InitOk i) : Parses getInit (initBytes i) i :=
  (parses_get8' h.control).bind ((parses_get8' h.sequence).bind ((parses_get8' h.count).bind
    ((parses_xs h.data).bind_nil (parses_pure _))))

/-! ## Tool descriptors -/

theorem isZero_iff (i : Id) : i.isZero = true ↔ i = ⟨0, 0⟩ := by
  cases i; simp [Id.isZero]

theorem descPayload_length (d : Desc) : (descPayload d).length = 18 + (bodyBytes d).length := by
  simp only [descPayload, List.length_append, be_length, idBytes_length]; omega

theorem descBytes_length (d : Desc) : (descBytes d).length = 5 + (descPayload d).length := by
  unfold descBytes; rw [descr_length (by omega)]

theorem descSize_eq {d : Desc} (h : DescOk d) : descSize d = .ok (5 + (descPayload d).length) := by
  have hs := h.size
  have hk := h.kind
  rw [descPayload_length] at hs ⊢
  unfold descSize
  unfold bodyBytes at hs ⊢
  by_cases hz : d.tool = ⟨0, 0⟩
  · rw [if_pos ((isZero_iff _).2 hz)]
    rw [if_pos hz] at hs hk ⊢
    obtain ⟨hu, -, -⟩ := hk
    cases hd : d.url with
    | none => exact absurd hd hu
    | some u =>
      rw [hd] at hs
      simp only [arrayBytes_length] at hs ⊢
      congr 1
      omega
  · rw [if_neg (by rw [isZero_iff]; exact hz)]
    rw [if_neg hz] at hs ⊢
    rw [sizeX_eq h.data]
    cases hi : d.init with
    | none =>
      simp only [hi, List.length_append, be_length] at hs ⊢
      congr 1
      omega
    | some i =>
      have hio := h.init i hi
      simp only [hi, List.length_append, be_length] at hs ⊢
      rw [initSize_eq hio.data hio.size]
      congr 1
      omega

theorem fits_body {d : Desc} (h : DescOk d) :
    Fits (if d.tool.isZero then
        match d.url with
        | none => W.fail .badData
        | some u => putArray u
      else
        put8 (if d.init.isSome then 0x80 else 0) ;;
        (match d.init with | none => W.skip | some i => inner (initSize i) (putInit i)) ;;
        put8 d.data.length ;; W.each (fun x => inner (xSize x) (putX x)) d.data) (bodyBytes d) := by
  have hk := h.kind
  unfold bodyBytes
  by_cases hz : d.tool = ⟨0, 0⟩
  · rw [if_pos ((isZero_iff _).2 hz)]
    rw [if_pos hz] at hk ⊢
    cases hd : d.url with
    | none => exact absurd hd hk.1
    | some u => exact fits_of (emits_array u)
  · rw [if_neg (by rw [isZero_iff]; exact hz), if_neg hz]
    have hx := (fits_of (emits_put8 d.data.length)).seq (fits_xs h.data)
    cases hi : d.init with
    | none =>
      simp only
      have := (fits_of (emits_put8 0)).seq ((fits_of emits_skip).seq hx)
      simpa using this
    | some i =>
      simp only
      have hio := h.init i hi
      have := (fits_of (emits_put8 0x80)).seq ((fits_inner (run_init hio.data hio.size)).seq hx)
      simpa using this

theorem run_desc {d : Desc} (h : DescOk d) :
    runW (5 + (descPayload d).length) (putDesc (5 + (descPayload d).length) d) = .ok (descBytes d) := by
  have hs := h.size
  have hh := emits_header 0x62 (descPayload d).length (by omega)
  rw [Nat.mod_eq_of_lt (by omega)] at hh
  have := ((fits_of hh).seq ((fits_of (emits_put16 d.id)).seq ((fits_of (emits_id d.tool)).seq (fits_body h)))).runFull
    (size := 5 + (descPayload d).length)
    (by
      have := descBytes_length d
      unfold descBytes descr descPayload at this
      rw [← List.append_assoc] at this
      exact this) (by omega)
  simp only [seq_assoc] at this
  unfold putDesc descBytes descr
  rw [← List.append_assoc]
  exact this

theorem written_desc {d : Desc} (h : DescOk d) : writeDesc d = .ok (descBytes d) := by
  unfold writeDesc
  rw [descSize_eq h]
  exact run_desc h

theorem parsesAt_desc {d : Desc} (h : DescOk d) :
    ParsesAt (getToolDesc (.ok ()) (5 + (descPayload d).length)) 5 (descPayload d) d := by
  have hs := h.size
  have hk := h.kind
  have e := descPayload_length d
  unfold getToolDesc
  refine ((parses_get16' h.id).at _).bind (((parses_id h.tool).at _).bind
    (ParsesAt.bind_nil (a := d) (x := bodyBytes d) ?_ (parsesAt_check (a := d) ?_)))
  · rw [e] at hs
    clear e
    unfold bodyBytes at hs ⊢
    by_cases hz : d.tool = ⟨0, 0⟩
    · rw [if_pos ((isZero_iff _).2 hz)]
      rw [if_pos hz] at hk hs ⊢
      obtain ⟨hu, h1, h2⟩ := hk
      cases hd : d.url with
      | none => exact absurd hd hu
      | some u =>
        rw [hd] at hs
        simp only [arrayBytes_length] at hs
        refine ParsesAt.of_eq ((Parses.map (fun u => (⟨d.id, d.tool, some u, none, []⟩ : Desc))
          (parses_array (b := u) (by omega))).at _) rfl ?_
        cases d
        simp_all
    · rw [if_neg (by rw [isZero_iff]; exact hz)]
      rw [if_neg hz] at hk hs ⊢
      have hx : Parses (P.repeat d.data.length getX) (d.data.flatMap xBytes) d.data := parses_xs h.data
      cases hi : d.init with
      | none =>
        refine ((parses_flag (v := 0) (by omega)).bind ?_).at _
        have := Parses.bind (f := fun init => do
            let n ← get8
            let data ← P.repeat n getX
            pure (⟨d.id, d.tool, none, init, data⟩ : Desc)) (parses_pure (none : Option Init))
          ((parses_get8' h.count).bind (hx.bind_nil (parses_pure _)))
        refine Parses.congr this rfl ?_
        cases d
        simp_all
      | some i =>
        have hio := h.init i hi
        simp only
        rw [List.append_assoc]
        refine ((parses_flag (v := 128) (by omega)).bind ?_).at _
        have := Parses.bind (f := fun init => do
            let n ← get8
            let data ← P.repeat n getX
            pure (⟨d.id, d.tool, none, init, data⟩ : Desc)) (Parses.map some (parses_init hio))
          ((parses_get8' h.count).bind (hx.bind_nil (parses_pure _)))
        refine Parses.congr this rfl ?_
        cases d
        simp_all
  · simp only [be_length, idBytes_length]
    omega

theorem parses_desc' {get : Nat → Nat → P Desc} {d : Desc} (hg : ∀ n, get 0x62 n = getToolDesc (.ok ()) n)
    (h : DescOk d) : Parses (getDesc get) (descBytes d) d := by
  have hs := h.size
  refine parses_desc (by omega) (by omega) (by omega) (by omega) ?_
  rw [hg]
  exact parsesAt_desc h

/-! ## The command -/

theorem sumSize_eq {l : List Desc} (h : ∀ d ∈ l, DescOk d) :
    l.foldr (fun d r => (descSize d).bind fun n => r.bind fun m => .ok (n + m)) (.ok 0) =
      .ok (l.flatMap descBytes).length := by
  induction l with
  | nil => rfl
  | cons a l ih =>
    rw [List.foldr_cons, ih fun d hd => h d (by simp [hd]), descSize_eq (h a (by simp)), List.flatMap_cons,
      List.length_append, descBytes_length]
    rfl

theorem emits_one {d : Desc} (h : DescOk d) : Emits (putOne d) (descBytes d) := by
  have := emits_nested (run_desc h) (descBytes_length d)
  intro s h1 h2
  unfold putOne
  rw [descSize_eq h]
  exact this s h1 h2

theorem written_update {l : List Desc} (h : ∀ d ∈ l, DescOk d) (hl : (l.flatMap descBytes).length < 2 ^ 28) :
    writeUpdate l = .ok (updateBytes l) := by
  have e : updateSize l = .ok (5 + (l.flatMap descBytes).length) := by
    unfold updateSize
    rw [sumSize_eq h]
    simp only [Res.bind]
    congr 1
    omega
  unfold writeUpdate
  rw [e]
  exact (emits_descr hl (Emits.each l fun d hd => emits_one (h d hd))).run_ok
    (by rw [descr_length (by omega)]) (by omega)

theorem parses_update {l : List Desc} (h : ∀ d ∈ l, DescOk d) (hl : (l.flatMap descBytes).length < 2 ^ 28) :
    Parses (getDesc (asUpdate (.ok ()))) (updateBytes l) l := by
  refine parses_desc (by omega) (by omega) (by omega) (by omega) ?_
  have := parsesAt_all (size := 1 + 4 + (l.flatMap descBytes).length) (k := 1 + 4)
    (get := getDescOr (.ok ()) .badData) (add := fun (l : List Desc) t => l ++ [t]) (bytes := descBytes) (v := id) (cs := l)
    (s := [])
    (fun t ht => ⟨parses_desc' (fun n => rfl) (h t ht), by rw [descBytes_length]; omega⟩) rfl
  rw [List.map_id, foldl_snoc] at this
  exact this

/-! ## Calls -/

/-- If each call appends to a list that the handle holds, so do many. -/
theorem calls_append {α β : Type} {f : Bytes → α → Res Bytes} {bytes : List β → Bytes} {v : α → β}
    {ok : List β → Prop} (hp : ∀ l b, ok (l ++ [b]) → ok l)
    (hf : ∀ l a, ok (l ++ [v a]) → f (bytes l) a = .ok (bytes (l ++ [v a]))) :
    ∀ (as : List α) (l : List β), ok (l ++ as.map v) → calls f (bytes l) as = .ok (bytes (l ++ as.map v)) := by
  intro as
  induction as with
  | nil => intro l _; simp [calls]
  | cons a as ih =>
    intro l h
    have h' : ok ((l ++ [v a]) ++ as.map v) := by simpa using h
    have pre : ∀ (t : List β) (l : List β), ok (l ++ t) → ok l := by
      intro t
      induction t with
      | nil => intro l h; simpa using h
      | cons b t iht => intro l h; exact hp l b (iht _ (by simpa using h))
    unfold calls
    rw [hf l a (pre _ _ h')]
    simp only [Res.bind]
    rw [ih _ h']
    simp

theorem le_reverse_be (n v : Nat) (h : v < 256 ^ n) : le (be n v).reverse = v := by
  have key : ∀ l : Bytes, le l.reverse = unbe l := by
    intro l
    have gen : ∀ (l : Bytes), le (l.reverse) = unbe l ∧ True := by
      intro l
      induction l with
      | nil => exact ⟨rfl, trivial⟩
      | cons b l ih =>
        refine ⟨?_, trivial⟩
        have app : ∀ (x : Bytes) (b : UInt8), le (x ++ [b]) = le x + 256 ^ x.length * b.toNat := by
          intro x b
          induction x with
          | nil => simp [le]
          | cons c x ih =>
            simp only [List.cons_append, le, ih, List.length_cons, Nat.pow_succ, Nat.mul_add]
            rw [Nat.mul_comm (256 ^ x.length) 256, Nat.mul_assoc]
            omega
        rw [List.reverse_cons, app, ih.1, List.length_reverse]
        have := unbe_append [b] l
        rw [List.singleton_append] at this
        rw [this]
        have e : unbe [b] = b.toNat := by simp [unbe]
        rw [e, Nat.mul_comm]
        omega
    exact (gen l).1
  rw [key, unbe_be, Nat.mod_eq_of_lt h]

theorem idLe_length (i : Id) : (idLe i).length = 16 := by simp [idLe, be_length]

theorem idsOf_eq (l : List Id) (h : ∀ i ∈ l, IdOk i) : idsOf l.length (l.flatMap idLe) = l := by
  induction l with
  | nil => rfl
  | cons a l ih =>
    have ha := h a (by simp)
    have hu := ha.upper
    have hw := ha.lower
    rw [List.length_cons, List.flatMap_cons, idsOf]
    have e1 : (idLe a ++ l.flatMap idLe).drop 16 = l.flatMap idLe := by
      rw [← idLe_length a]; exact List.drop_left
    have e2 : (idLe a ++ l.flatMap idLe).take 8 = (be 8 a.lower).reverse := by
      unfold idLe
      rw [List.append_assoc]
      have : (be 8 a.lower).reverse.length = 8 := by simp [be_length]
      rw [← this]; exact List.take_left
    have e3 : ((idLe a ++ l.flatMap idLe).drop 8).take 8 = (be 8 a.upper).reverse := by
      rw [show idLe a = (be 8 a.lower).reverse ++ (be 8 a.upper).reverse from rfl, List.append_assoc]
      have h1 : (be 8 a.lower).reverse.length = 8 := by simp [be_length]
      have h2 : (be 8 a.upper).reverse.length = 8 := by simp [be_length]
      rw [show List.drop 8 ((be 8 a.lower).reverse ++ ((be 8 a.upper).reverse ++ l.flatMap idLe)) =
        (be 8 a.upper).reverse ++ l.flatMap idLe from by
          conv => lhs; rw [← h1]
          exact List.drop_left]
      conv => lhs; rw [← h2]
      exact List.take_left
    rw [e1, e2, e3, ih fun i hi => h i (by simp [hi]), le_reverse_be _ _ (by omega), le_reverse_be _ _ (by omega)]

theorem toolOk_urls {t : Tool} {l : List Bytes} {b : Bytes} (h : ToolOk { t with urls := l ++ [b] }) :
    ToolOk { t with urls := l } := by
  have hs := h.size
  have hc := h.urlsCount
  rw [toolPayload_length] at hs
  simp only [List.map_append, List.sum_append, List.length_append] at hs hc
  refine ⟨h.id, h.alternates, h.alternatesCount, ?_, ?_⟩
  · simp only; omega
  · rw [toolPayload_length]
    simp only
    cases hp : t.param with
    | none => simp only [hp] at hs ⊢; omega
    | some p => simp only [hp] at hs ⊢; omega

theorem descOk_data {d : Desc} {l : List XData} {b : XData} (hz : d.tool ≠ ⟨0, 0⟩)
    (h : DescOk { d with data := l ++ [b] }) : DescOk { d with data := l } := by
  have hs := h.size
  have hc := h.count
  have hk := h.kind
  simp only [if_neg hz] at hk
  rw [descPayload_length] at hs
  unfold bodyBytes at hs
  simp only [if_neg hz, List.flatMap_append, List.length_append] at hs hc
  refine ⟨h.id, h.tool, by simp only [if_neg hz]; exact hk, h.init, by simp only; omega,
    fun x hx => h.data x (by simp only at hx ⊢; simp [hx]), ?_⟩
  rw [descPayload_length]
  unfold bodyBytes
  simp only [if_neg hz, List.length_append]
  simp only [be_length] at hs ⊢
  omega

theorem destroyAll_none (l : List Desc) (h : ∀ d ∈ l, d.init = none) : destroyAll l = .ok () := by
  induction l with
  | nil => rfl
  | cons a l ih =>
    have : destroy a = .ok () := by unfold destroy; simp [h a (by simp)]
    rw [destroyAll, this]
    exact ih fun d hd => h d (by simp [hd])

end Verif.Ipmp
