import Verif.Lemmas.Ipmp

/-!
# C89: tools of IPMP extensions are kept in handles

`wide` is what becomes of two stores of four bytes into one byte on the stack: see Model/Ipmp. The
theorems with `.ok ()` are about machines where they do no harm.
-/

namespace Verif.Ipmp

open Verif.Descr Verif.Od

/-- `write` gives `bytes`; wherever they are, `read` takes exactly them and gives `a`. -/
def Exchange {α : Type} (write : Res Bytes) (read : P α) (bytes : Bytes) (a : α) : Prop :=
  write = .ok bytes ∧ ∀ rest k, read ⟨bytes ++ rest, k⟩ = .ok (a, ⟨rest, k + bytes.length⟩)

/-- A tool with one alternative, a description and a URL. -/
def exTool : Tool := ⟨⟨1, 2 ^ 63⟩, [⟨3, 4⟩], some [5, 6], [[104, 116]]⟩

theorem exTool_ok : ToolOk exTool := by
  refine ⟨⟨by decide, by decide⟩, ?_, by decide, by decide, by decide +kernel⟩
  intro i hi
  simp only [exTool, List.mem_singleton] at hi
  subst hi
  exact ⟨by decide, by decide⟩

def exData : XData := ⟨0x05, 1, [7, 8, 9]⟩

theorem exData_ok : XOk exData := ⟨by decide, by decide, by decide⟩

theorem mem_exData {d : XData} {n : Nat} (h : d ∈ List.replicate n exData) : XOk d := by
  rw [List.eq_of_mem_replicate h]; exact exData_ok

def exInit : Init := ⟨2, 3, List.replicate 2 exData⟩

theorem exInit_ok : InitOk exInit := ⟨by decide, by decide, by decide, fun _ h => mem_exData h, by decide +kernel⟩

/-- With an id, and with a URL. -/
def exDesc (init : Option Init) : Desc := ⟨9, ⟨0, 5⟩, none, init, List.replicate 2 exData⟩

theorem exDesc_ok (init : Option Init) (h : init = none ∨ init = some exInit) : DescOk (exDesc init) := by
  refine ⟨by simp [exDesc], ⟨by simp [exDesc], by simp [exDesc]⟩, by simp [exDesc], ?_, by simp [exDesc],
    fun x hx => mem_exData hx, ?_⟩
  · intro i hi
    rcases h with h | h
    · rw [h] at hi; cases hi
    · rw [h] at hi; cases hi; exact exInit_ok
  · rcases h with h | h <;> subst h <;> decide +kernel

def exUrl : Desc := ⟨9, ⟨0, 0⟩, some [104, 116], none, []⟩

theorem exUrl_ok : DescOk exUrl :=
  ⟨by decide, ⟨by decide, by decide⟩, by decide, (by intro i hi; cases hi), by decide, (by intro x hx; cases hx), by decide +kernel⟩

/-! ## What is written is read -/

theorem c89_tool {t : Tool} (h : ToolOk t) :
    Exchange (runW (toolSize t) (putTool t)) (getDesc (asTool (.ok ()))) (toolBytes t) t :=
  ⟨run_tool h.size, parses_tool (fun _ => rfl) h⟩

example : toolBytes exTool = [0x63, 0x80, 0x80, 0x80, 47, 0, 0, 0, 0, 0, 0, 0, 1, 128, 0, 0, 0, 0, 0, 0, 0, 0xC0, 1,
    0, 0, 0, 0, 0, 0, 0, 3, 0, 0, 0, 0, 0, 0, 0, 4, 0, 0, 0, 2, 5, 6, 1, 0, 0, 0, 2, 104, 116] ∧ ToolOk exTool :=
  ⟨by decide +kernel, exTool_ok⟩

theorem c89_list {l : List Tool} (h : ∀ t ∈ l, ToolOk t) (hl : (l.flatMap toolBytes).length < 2 ^ 28) :
    Exchange (runW (listSize l) (putList l)) (getDesc (asList (.ok ()))) (listBytes l) l :=
  ⟨run_list h hl, parses_list h hl⟩

example : ∀ t ∈ [exTool, exTool], ToolOk t := by
  intro t ht
  simp at ht
  subst ht
  exact exTool_ok

theorem c89_data {d : XData} (h : XOk d) : Exchange (runW (xSize d) (putX d)) getX (xBytes d) d :=
  ⟨run_x h, parses_x h⟩

example : xBytes exData = [5, 0x80, 0x80, 0x80, 4, 1, 7, 8, 9] ∧ XOk exData := ⟨by decide +kernel, exData_ok⟩

theorem c89_init {i : Init} (h : InitOk i) :
    Exchange (runW (initSize i) (putInit i)) getInit (initBytes i) i :=
  ⟨run_init h.data h.size, parses_init h⟩

example : initBytes exInit = [2, 3, 2, 5, 0x80, 0x80, 0x80, 4, 1, 7, 8, 9, 5, 0x80, 0x80, 0x80, 4, 1, 7, 8, 9] ∧
    InitOk exInit := ⟨by decide +kernel, exInit_ok⟩

theorem c89_desc {d : Desc} (h : DescOk d) :
    Exchange (writeDesc d) (getDesc (asDesc (.ok ()))) (descBytes d) d :=
  ⟨written_desc h, parses_desc' (fun _ => rfl) h⟩

example : DescOk (exDesc (some exInit)) ∧ DescOk exUrl ∧ descBytes exUrl = [0x62, 0x80, 0x80, 0x80, 24, 0, 9,
    0, 0, 0, 0, 0, 0, 0, 0, 0, 0, 0, 0, 0, 0, 0, 0, 0, 0, 0, 2, 104, 116] :=
  ⟨exDesc_ok _ (.inr rfl), exUrl_ok, by decide +kernel⟩

theorem c89_update {l : List Desc} (h : ∀ d ∈ l, DescOk d) (hl : (l.flatMap descBytes).length < 2 ^ 28) :
    Exchange (writeUpdate l) (getDesc (asUpdate (.ok ()))) (updateBytes l) l :=
  ⟨written_update h hl, parses_update h hl⟩

example : ∀ d ∈ [exDesc (some exInit), exUrl], DescOk d := by
  intro d hd
  simp at hd
  rcases hd with rfl | rfl
  · exact exDesc_ok _ (.inr rfl)
  · exact exUrl_ok

/-! ## What the functions on handles build -/

/-- A new tool, with ids and a description as given. -/
theorem c89_new_tool {t : Tool} (h : ToolOk t) (hu : t.urls = []) :
    newTool t.id.lower t.id.upper (if t.alternates = [] then none else some (t.alternates.flatMap idLe)) t.param =
      .ok (toolBytes t) := by
  have hr := run_tool h.size
  obtain ⟨⟨up, lo⟩, alts, param, urls⟩ := t
  simp only at hu
  subst hu
  have ha := h.alternates
  have hl : (alts.flatMap idLe).length = 16 * alts.length := flatMap_length_const (c := 16) _ fun x _ => idLe_length x
  simp only at ha ⊢
  unfold newTool
  by_cases hn : alts = []
  · subst hn
    rw [if_pos rfl]
    exact hr
  · have hp : 0 < alts.length := List.length_pos_iff.2 hn
    rw [if_neg hn]
    simp only
    rw [if_neg (by rw [hl]; omega), hl, Nat.mul_div_cancel_left _ (by omega), idsOf_eq _ ha]
    exact hr

example : newTool (2 ^ 63) 1 (some [4, 0, 0, 0, 0, 0, 0, 0, 3, 0, 0, 0, 0, 0, 0, 0]) (some [5, 6]) =
    .ok (toolBytes { exTool with urls := [] }) := by decide +kernel

/-- Ids that are none, or not whole. -/
theorem c89_new_tool_refused (lower upper : Nat) (a : Bytes) (param : Option Bytes)
    (h : a = [] ∨ a.length % 16 ≠ 0) : newTool lower upper (some a) param = .err .badParam := by
  unfold newTool
  simp only
  rw [if_pos (by rcases h with h | h <;> simp [h])]
  rfl

example : newTool 1 2 (some [0, 0, 0, 0, 0, 0, 0, 1]) none = .err .badParam :=
  c89_new_tool_refused _ _ _ _ (.inr (by decide))

/-- Each URL gets its length. Missing: its bytes, which `c89_not_url` shows are lost. -/
theorem c89_urls_partial {t : Tool} {urls : List Bytes}
    (h : ToolOk { t with urls := t.urls ++ urls.map fun u => List.replicate u.length 0 }) :
    calls (addUrl (.ok ())) (toolBytes t) urls =
      .ok (toolBytes { t with urls := t.urls ++ urls.map fun u => List.replicate u.length 0 }) := by
  refine calls_append (f := addUrl (.ok ())) (bytes := fun l => toolBytes { t with urls := l })
    (v := fun u : Bytes => List.replicate u.length (0 : UInt8)) (ok := fun l => ToolOk { t with urls := l })
    (fun l b => toolOk_urls) ?_ urls t.urls h
  intro l a hl
  unfold addUrl
  rw [Parses.parse (parses_tool (fun _ => rfl) (toolOk_urls hl))]
  exact run_tool hl.size

example : calls (addUrl (.ok ())) (toolBytes exTool) [[97], [98, 99]] =
    .ok (toolBytes { exTool with urls := [[104, 116], [0], [0, 0]] }) := by decide +kernel

theorem c89_new_list : newList = .ok (listBytes []) := run_list (by simp) (by simp)

/-- Tools come in the order of the calls. -/
theorem c89_list_built {tools : List Tool} (h : ∀ t ∈ tools, ToolOk t)
    (hl : (tools.flatMap toolBytes).length < 2 ^ 28) :
    newList.bind (fun l => calls (addTool (.ok ())) l (tools.map toolBytes)) = .ok (listBytes tools) := by
  rw [c89_new_list]
  have key : ∀ (as l : List Tool), (∀ t ∈ l ++ as, ToolOk t) → ((l ++ as).flatMap toolBytes).length < 2 ^ 28 →
      calls (addTool (.ok ())) (listBytes l) (as.map toolBytes) = .ok (listBytes (l ++ as)) := by
    intro as
    induction as with
    | nil => intro l _ _; simp [calls]
    | cons a as ih =>
      intro l h1 h2
      have e : l ++ a :: as = (l ++ [a]) ++ as := by simp
      rw [e] at h1 h2 ⊢
      have hpre : ∀ t ∈ l ++ [a], ToolOk t := fun t ht => h1 t (by simp at ht ⊢; rcases ht with h | h <;> simp [h])
      have hlen : ((l ++ [a]).flatMap toolBytes).length < 2 ^ 28 := by
        rw [List.flatMap_append, List.length_append] at h2; omega
      rw [List.map_cons, calls]
      have : addTool (.ok ()) (listBytes l) (toolBytes a) = .ok (listBytes (l ++ [a])) := by
        unfold addTool
        rw [Parses.parse (parses_list (fun t ht => hpre t (by simp [ht]))
          (by rw [List.flatMap_append, List.length_append] at hlen; omega))]
        rw [Res.ok_bind, Parses.parse (parses_tool (get := getToolOr (.ok ()) .badParam) (fun _ => rfl) (hpre a (by simp)))]
        exact run_list hpre hlen
      rw [this]
      exact ih _ h1 h2
  exact key tools [] (by simpa using h) (by simpa using hl)

example : newList.bind (fun l => calls (addTool (.ok ())) l [toolBytes exTool, toolBytes exTool]) =
    .ok (listBytes [exTool, exTool]) := by decide +kernel

/-- A descriptor without a class of its own is not a tool. -/
theorem c89_list_refused {tools : List Tool} (h : ∀ t ∈ tools, ToolOk t)
    (hl : (tools.flatMap toolBytes).length < 2 ^ 28) {tag : Nat} {p : Bytes} (ht : tag < 256)
    (ho : ownClass tag = false) (hp : p.length < 2 ^ 28) :
    addTool (.ok ()) (listBytes tools) (descr 4 tag p) = .err .badParam := by
  unfold addTool
  rw [Parses.parse (parses_list h hl), Res.ok_bind]
  have : parse (getDesc (getToolOr (.ok ()) .badParam)) (descr 4 tag p) = .err .badParam := by
    have hd : Parses (getDesc getDefault) (descr 4 tag p) (⟨tag, p⟩ : Default) := by
      refine parses_desc (by omega) (by omega) (by omega) ht ?_
      unfold getDefault
      refine parsesAt_bytesRead ?_
      have e : w32(1 + 4 + p.length + (4294967296 - (1 + 4))) = p.length := by omega
      rw [e]
      exact (Parses.map (fun data => (⟨tag, data⟩ : Default)) (parses_getBytes rfl)).at _
    have := hd [] 0
    rw [List.append_nil] at this
    unfold parse getDesc
    unfold getDesc at this
    unfold descr at this ⊢
    rw [be1] at this ⊢
    simp only [List.singleton_append] at this ⊢
    cases hg : getLength (lengthBytes 4 p.length ++ p) 0 1 with
    | err e => rw [hg] at this; cases this
    | ub => rw [hg] at this; cases this
    | ok r =>
      obtain ⟨size, n, r'⟩ := r
      rw [hg] at this
      simp only at this ⊢
      have et : (UInt8.ofNat tag).toNat = tag := by rw [ofNat_toNat_mod, Nat.mod_eq_of_lt ht]
      rw [et] at this ⊢
      have hne : tag ≠ 0x63 := by intro e; rw [e] at ho; revert ho; decide
      unfold getToolOr
      rw [if_neg hne, ho]
      simp only [Bool.false_eq_true, if_false, P.bind_apply]
      cases hgd : getDefault tag w32(size + n) ⟨r', n⟩ with
      | err e => rw [hgd] at this; cases this
      | ub => rw [hgd] at this; cases this
      | ok x => rfl
  rw [this]
  rfl

example : addTool (.ok ()) (listBytes [exTool]) [0x05, 0x80, 0x80, 0x80, 1, 7] = .err .badParam := by decide +kernel

/-- A pointer says either the id of a descriptor or, with 255, that of a tool descriptor. -/
theorem c89_pointer {id tool : Nat} (hi : id < 256) (_ht : tool < 65536) :
    newPointer id tool =
      if (id = 255) = (tool ≠ 0) then
        .ok (descr 4 0x0A (be 1 id ++ if id = 255 then be 2 tool ++ be 2 0 else []))
      else .err .badParam := by
  unfold newPointer
  by_cases h1 : id = 255
  · subst h1
    by_cases h2 : tool = 0
    · subst h2; simp
    · rw [if_neg (by simp), if_neg (by simp [h2]), if_pos (by simp [h2]), if_pos rfl]
      have := (fits_of (emits_descr (tag := 0x0A) (p := be 1 255 ++ (be 2 tool ++ be 2 0))
        (by simp [be_length]) ((emits_put8 255).seq ((emits_put16 tool).seq (emits_put16 0))))).runFull
        (size := 10) (by rw [descr_length (by omega)]; simp [be_length]) (by omega)
      simp only [seq_assoc, List.length_append, be_length] at this
      unfold putPtr ptrSize
      simp only [if_true, seq_assoc]
      exact this
  · by_cases h2 : tool = 0
    · subst h2
      rw [if_neg (by simp), if_neg (by simp [h1]), if_pos (by simp [h1]), if_neg h1]
      have := (fits_of (emits_descr (tag := 0x0A) (p := be 1 id ++ [])
        (by simp [be_length]) ((emits_put8 id).seq emits_skip))).runFull
        (size := 6) (by rw [descr_length (by omega)]; simp [be_length]) (by omega)
      simp only [seq_assoc, List.length_append, be_length, List.length_nil] at this
      unfold putPtr ptrSize
      simp only [if_neg h1]
      exact this
    · rw [if_pos ⟨h1, h2⟩, if_neg (by simp [h1, h2])]

example : newPointer 255 0x102 = .ok [0x0A, 0x80, 0x80, 0x80, 5, 255, 1, 2, 0, 0] ∧
    newPointer 7 0 = .ok [0x0A, 0x80, 0x80, 0x80, 1, 7] ∧ newPointer 255 0 = .err .badParam ∧
    newPointer 7 1 = .err .badParam := by decide +kernel

/-- Data for the start of a tool come in the order of the calls. -/
theorem c89_init_built {i : Init} (h : InitOk i) (hc : i.control ≠ 255) :
    (newInit i.control i.sequence).bind (fun b => calls addInitData b (i.data.map xBytes)) = .ok (initBytes i) := by
  have e : newInit i.control i.sequence = .ok (initBytes ⟨i.control, i.sequence, []⟩) := by
    unfold newInit
    rw [if_neg hc]
    exact run_init (by simp) (by rw [initBytes_length]; simp)
  rw [e]
  have key : ∀ (as l : List XData), (∀ d ∈ l ++ as, XOk d) → (l ++ as).length < 256 →
      (initBytes ⟨i.control, i.sequence, l ++ as⟩).length < 2 ^ 28 →
      calls addInitData (initBytes ⟨i.control, i.sequence, l⟩) (as.map xBytes) =
        .ok (initBytes ⟨i.control, i.sequence, l ++ as⟩) := by
    intro as
    induction as with
    | nil => intro l _ _ _; simp [calls]
    | cons a as ih =>
      intro l h1 h2 h3
      have e : l ++ a :: as = (l ++ [a]) ++ as := by simp
      rw [e] at h1 h2 h3 ⊢
      have hpre : ∀ t ∈ l ++ [a], XOk t := fun t ht => h1 t (by simp at ht ⊢; rcases ht with h | h <;> simp [h])
      have hs : (initBytes ⟨i.control, i.sequence, l ++ [a]⟩).length < 2 ^ 28 := by
        rw [initBytes_length] at h3 ⊢
        simp only [List.flatMap_append, List.length_append] at h3 ⊢
        omega
      have ho : InitOk ⟨i.control, i.sequence, l⟩ := by
        refine ⟨h.control, h.sequence, ?_, fun d hd => hpre d (by simp at hd ⊢; simp [hd]), ?_⟩
        · simp only [List.length_append] at h2 ⊢; omega
        · rw [initBytes_length] at hs ⊢
          simp only [List.flatMap_append, List.length_append] at hs ⊢
          omega
      rw [List.map_cons, calls]
      have : addInitData (initBytes ⟨i.control, i.sequence, l⟩) (xBytes a) =
          .ok (initBytes ⟨i.control, i.sequence, l ++ [a]⟩) := by
        unfold addInitData
        rw [Parses.parse (parses_init ho), Res.ok_bind, Parses.parse (parses_x (hpre a (by simp)))]
        exact run_init hpre hs
      rw [this]
      exact ih _ h1 h2 h3
  exact key i.data [] (by simpa using h.data) (by simpa using h.count) (by simpa using h.size)

example : InitOk exInit ∧ exInit.control ≠ 255 := ⟨exInit_ok, by decide⟩

/-- A descriptor for a tool with an id and nothing to start it with. -/
theorem c89_new_desc {d : Desc} (h : DescOk d) (hid : d.id ≠ 0) (hz : d.tool ≠ ⟨0, 0⟩) (hi : d.init = none)
    (hd : d.data = []) : newDesc d.id d.tool.lower d.tool.upper none = .ok (descBytes d) := by
  have hk := h.kind
  have hw := written_desc h
  rw [if_neg hz] at hk
  obtain ⟨id, ⟨up, lo⟩, url, init, data⟩ := d
  simp only at hk hi hd hid ⊢
  subst hk; subst hi; subst hd
  unfold newDesc
  rw [if_neg hid]
  exact hw

example : newDesc 9 5 0 none = .ok [0x62, 0x80, 0x80, 0x80, 20, 0, 9, 0, 0, 0, 0, 0, 0, 0, 0, 0, 0, 0, 0, 0, 0, 0, 5, 0, 0] := by
  decide +kernel

/-- Its data come in the order of the calls. -/
theorem c89_desc_built {d : Desc} (h : DescOk d) (hz : d.tool ≠ ⟨0, 0⟩) (hi : d.init = none) :
    calls (addDescData (.ok ())) (descBytes { d with data := [] }) (d.data.map xBytes) = .ok (descBytes d) := by
  have key : ∀ (as l : List XData), DescOk { d with data := l ++ as } →
      calls (addDescData (.ok ())) (descBytes { d with data := l }) (as.map xBytes) =
        .ok (descBytes { d with data := l ++ as }) := by
    intro as
    induction as with
    | nil => intro l _; simp [calls]
    | cons a as ih =>
      intro l h1
      have e : l ++ a :: as = (l ++ [a]) ++ as := by simp
      rw [e] at h1 ⊢
      have pre : ∀ (as l : List XData), DescOk { d with data := l ++ as } → DescOk { d with data := l } := by
        intro as
        induction as with
        | nil => intro l h; simpa using h
        | cons b as ih =>
          intro l h
          exact descOk_data hz (ih (l ++ [b]) (by simpa using h))
      have h2 := pre _ _ h1
      rw [List.map_cons, calls]
      have : addDescData (.ok ()) (descBytes { d with data := l }) (xBytes a) =
          .ok (descBytes { d with data := l ++ [a] }) := by
        unfold addDescData
        have hdes : destroy { d with data := l } = .ok () := by unfold destroy; simp [hi]
        rw [Parses.parse (parses_desc' (get := asDesc (.ok ())) (fun _ => rfl) (descOk_data hz h2)), Res.ok_bind, hdes,
          Res.ok_bind, Parses.parse (parses_x (h2.data a (by simp)))]
        exact written_desc h2
      rw [this]
      exact ih _ h1
  exact key d.data [] (by simpa using h)

example : DescOk (exDesc none) ∧ (exDesc none).tool ≠ ⟨0, 0⟩ ∧ (exDesc none).data.length = 2 :=
  ⟨exDesc_ok _ (.inl rfl), by decide, by decide⟩

/-- The command holds the descriptors in the order of the calls. -/
theorem c89_update_built {l : List Desc} (h : ∀ d ∈ l, DescOk d) (hi : ∀ d ∈ l, d.init = none)
    (hl : (l.flatMap descBytes).length < 2 ^ 28) :
    newUpdate.bind (fun u => calls (addDesc (.ok ())) u (l.map descBytes)) = .ok (updateBytes l) := by
  have e : newUpdate = .ok (updateBytes []) := written_update (by simp) (by simp)
  rw [e]
  have key : ∀ (as l : List Desc), (∀ t ∈ l ++ as, DescOk t) → (∀ d ∈ l ++ as, d.init = none) →
      ((l ++ as).flatMap descBytes).length < 2 ^ 28 →
      calls (addDesc (.ok ())) (updateBytes l) (as.map descBytes) = .ok (updateBytes (l ++ as)) := by
    intro as
    induction as with
    | nil => intro l _ _ _; simp [calls]
    | cons a as ih =>
      intro l h1 h2 h3
      have e : l ++ a :: as = (l ++ [a]) ++ as := by simp
      rw [e] at h1 h2 h3 ⊢
      have hpre : ∀ t ∈ l ++ [a], DescOk t := fun t ht => h1 t (by simp at ht ⊢; rcases ht with h | h <;> simp [h])
      have hin : ∀ t ∈ l ++ [a], t.init = none := fun t ht => h2 t (by simp at ht ⊢; rcases ht with h | h <;> simp [h])
      have hlen : ((l ++ [a]).flatMap descBytes).length < 2 ^ 28 := by
        rw [List.flatMap_append, List.length_append] at h3; omega
      have hd : destroy a = .ok () := by unfold destroy; simp [hin a (by simp)]
      rw [List.map_cons, calls]
      have : addDesc (.ok ()) (updateBytes l) (descBytes a) = .ok (updateBytes (l ++ [a])) := by
        unfold addDesc
        rw [Parses.parse (parses_update (fun t ht => hpre t (by simp [ht]))
          (by rw [List.flatMap_append, List.length_append] at hlen; omega)), Res.ok_bind,
          destroyAll_none l (fun d hd => hin d (by simp [hd])), Res.ok_bind,
          Parses.parse (parses_desc' (get := getDescOr (.ok ()) .badData) (fun _ => rfl) (hpre a (by simp))), Res.ok_bind, hd,
          Res.ok_bind]
        exact written_update hpre hlen
      rw [this]
      exact ih _ h1 h2 h3
  exact key l [] (by simpa using h) (by simpa using hi) (by simpa using hl)

example : newUpdate.bind (fun u => calls (addDesc (.ok ())) u [descBytes (exDesc none), descBytes exUrl]) =
    .ok (updateBytes [exDesc none, exUrl]) := by decide +kernel

/-! ## Where it goes wrong -/

/-- The bytes of a URL are not kept, unless they are zeros. -/
theorem c89_not_url {t : Tool} {url : Bytes} (h : ToolOk { t with urls := t.urls ++ [url] })
    (hu : ∃ b ∈ url, b ≠ 0) : ∃ handle got, addUrl (.ok ()) (toolBytes t) url = .ok handle ∧
      parse (getDesc (asTool (.ok ()))) handle = .ok got ∧ got ≠ { t with urls := t.urls ++ [url] } := by
  have hz : ToolOk { t with urls := t.urls ++ [List.replicate url.length 0] } := by
    have hs := h.size
    have hc := h.urlsCount
    refine ⟨h.id, h.alternates, h.alternatesCount, ?_, ?_⟩
    · simpa using hc
    · rw [toolPayload_length] at hs ⊢
      simpa using hs
  have := c89_urls_partial (t := t) (urls := [url]) (by simpa using hz)
  refine ⟨_, _, ?_, Parses.parse (parses_tool (fun _ => rfl) hz), ?_⟩
  · simp only [calls, List.map_cons, List.map_nil] at this
    cases ha : addUrl (.ok ()) (toolBytes t) url with
    | ok x => rw [ha] at this; exact this
    | err e => rw [ha] at this; cases this
    | ub => rw [ha] at this; cases this
  · intro e
    have e' := congrArg Tool.urls e
    simp only [List.append_cancel_left_eq, List.cons.injEq, and_true] at e'
    obtain ⟨b, hb, hne⟩ := hu
    rw [← e'] at hb
    exact hne (List.eq_of_mem_replicate hb)

example : addUrl (.ok ()) (toolBytes { exTool with urls := [] }) [104] = .ok (toolBytes { exTool with urls := [[0]] }) := by
  decide +kernel

/-- With 256 of them the count is written as 0, and all the data for the start of a tool are lost. -/
theorem c89_not_256 {i : Init} (hc : i.control < 255) (hq : i.sequence < 256) (hd : ∀ d ∈ i.data, XOk d)
    (hl : i.data.length = 256) (hs : (initBytes i).length < 2 ^ 28) :
    ∃ handle, (newInit i.control i.sequence).bind (fun b => calls addInitData b (i.data.map xBytes)) = .ok handle ∧
      parse getInit handle = .ok ⟨i.control, i.sequence, []⟩ := by
  obtain ⟨c, q, data⟩ := i
  simp only at hc hq hd hl ⊢
  have hne : data ≠ [] := by intro e; rw [e] at hl; cases hl
  obtain ⟨init, last, rfl⟩ : ∃ l x, data = l ++ [x] := ⟨data.dropLast, data.getLast hne, (List.dropLast_concat_getLast hne).symm⟩
  have hs' := hs
  rw [initBytes_length] at hs'
  simp only [List.flatMap_append, List.length_append] at hs' hl
  have ho : InitOk ⟨c, q, init⟩ := ⟨by simp only; omega, hq, by simp only; simp at hl; omega,
    fun d hdm => hd d (by simp only at hdm; simp [hdm]), by rw [initBytes_length]; simp only; omega⟩
  have hb := c89_init_built ho (by simp only; omega)
  have snoc : ∀ (as : List Bytes) (a h : Bytes), calls addInitData h (as ++ [a]) =
      (calls addInitData h as).bind fun h' => addInitData h' a := by
    intro as
    induction as with
    | nil =>
      intro a h
      simp only [List.nil_append, calls, Res.bind]
      cases addInitData h a <;> rfl
    | cons x as ih =>
      intro a h
      simp only [List.cons_append, calls]
      cases addInitData h x with
      | ok y => exact ih a y
      | err e => rfl
      | ub => rfl
  refine ⟨initBytes ⟨c, q, init ++ [last]⟩, ?_, ?_⟩
  · simp only at hb
    cases hn : newInit c q with
    | err e => rw [hn] at hb; cases hb
    | ub => rw [hn] at hb; cases hb
    | ok n =>
      rw [hn] at hb
      simp only [Res.bind] at hb ⊢
      rw [List.map_append, List.map_cons, List.map_nil, snoc, hb]
      simp only [Res.bind]
      unfold addInitData
      rw [Parses.parse (parses_init ho), Res.ok_bind, Parses.parse (parses_x (hd last (by simp)))]
      exact run_init hd hs
  · have hp : Parses getInit (be 1 c ++ (be 1 q ++ be 1 256)) ⟨c, q, []⟩ :=
      (parses_get8' (by omega)).bind ((parses_get8' hq).bind ((parses_get8 256).bind_nil ((parses_pure []).bind_nil (parses_pure _))))
    have := hp ((init ++ [last]).flatMap xBytes) 0
    unfold parse initBytes
    simp only [List.length_append] at hl ⊢
    rw [hl]
    rw [List.append_assoc, List.append_assoc] at this
    rw [this]
    rfl

example : (∀ d ∈ List.replicate 256 exData, XOk d) ∧
    (initBytes ⟨2, 3, List.replicate 256 exData⟩).length < 2 ^ 28 := by
  refine ⟨fun _ h => mem_exData h, ?_⟩
  rw [initBytes_length, flatMap_length_const (c := 9) _ fun x hx => by
    rw [List.eq_of_mem_replicate hx]; decide +kernel]
  decide +kernel

/-- With 256 alternatives a tool is written that cannot be read. -/
theorem c89_not_256_alternates {t : Tool} {a : Id} {as : List Id} (hp : (toolPayload t).length < 2 ^ 28)
    (hi : IdOk t.id) (he : t.alternates = a :: as) (hl : t.alternates.length = 256) (ha : a.upper < 2 ^ 56)
    (hn : t.param = none) :
    runW (toolSize t) (putTool t) = .ok (toolBytes t) ∧
      parse (getDesc (asTool (.ok ()))) (toolBytes t) = .err .badData := by
  refine ⟨run_tool hp, ?_⟩
  have hz : be 8 a.upper = be 1 0 ++ be 7 a.upper := by
    have : UInt8.ofNat (a.upper / 72057594037927936) = UInt8.ofNat 0 := by
      rw [Nat.div_eq_of_lt (by omega)]
    simp only [be, Nat.pow_succ, Nat.pow_zero, Nat.one_mul] at this ⊢
    simp [this]
  -- what is read: id, flags, count 0, count of URLs 0
  have hsplit : toolPayload t = idBytes t.id ++ (be 1 128 ++ (be 1 256 ++ (be 1 0 ++ (be 7 a.upper ++ (be 8 a.lower ++
      (as.flatMap idBytes ++ (be 1 t.urls.length ++ t.urls.flatMap arrayBytes))))))) := by
    unfold toolPayload
    have hf : toolFlags t = 128 := by unfold toolFlags; rw [he, hn]; simp
    rw [hf, hn]
    unfold altBytes
    rw [if_neg (by rw [he]; simp), hl, he, List.flatMap_cons]
    unfold idBytes
    rw [hz]
    simp [paramBytes]
  have hlen : (toolPayload t).length ≥ 30 := by
    rw [hsplit]
    simp only [List.length_append, be_length, idBytes_length]
    omega
  have hbody : ∀ r, getTool (.ok ()) (5 + (toolPayload t).length) ⟨toolPayload t ++ r, 5⟩ = .err .badData := by
    intro r
    unfold getTool
    rw [P.bind_apply]
    have e : toolPayload t ++ r = idBytes t.id ++ (be 1 128 ++ (be 1 256 ++ (be 1 0 ++ ((be 7 a.upper ++ (be 8 a.lower ++
      (as.flatMap idBytes ++ (be 1 t.urls.length ++ t.urls.flatMap arrayBytes)))) ++ r)))) := by
      rw [hsplit]; simp only [List.append_assoc]
    rw [e, parses_id hi]
    simp only
    rw [P.bind_apply, parses_flag (by omega)]
    simp only [getIf]
    rw [if_pos (by decide), if_neg (by decide), P.bind_apply, P.bind_apply, parses_get8]
    simp only [P.bind_apply, P.pure_apply]
    have e0 : ∀ s, (P.repeat (256 % 256) getId) s = .ok ([], s) := fun s => rfl
    rw [e0]
    simp only
    rw [parses_get8]
    have e1 : ∀ s, (P.repeat (0 % 256) getArray) s = .ok ([], s) := fun s => rfl
    simp only
    rw [e1]
    simp only [checkRead, P.bind_apply, P.bytesRead, be_length, idBytes_length]
    rw [if_neg (by omega)]
    rfl
  unfold parse toolBytes descr
  rw [be1]
  unfold getDesc
  simp only [List.singleton_append]
  have hg : getLength (lengthBytes 4 (toolPayload t).length ++ toolPayload t) 0 1 =
      .ok ((toolPayload t).length, 5, toolPayload t) := by
    exact getLength_bytes (by omega) (by omega) (by omega) _
  rw [hg]
  simp only
  have et : (UInt8.ofNat 0x63).toNat = 0x63 := by decide
  rw [et]
  have hb := hbody []
  rw [List.append_nil] at hb
  have ew : w32((toolPayload t).length + 5) = 5 + (toolPayload t).length := by omega
  rw [ew]
  unfold asTool
  rw [if_pos rfl, hb]
  rfl

example : let t : Tool := ⟨⟨0, 1⟩, List.replicate 256 ⟨0, 2⟩, none, []⟩
    (toolPayload t).length < 2 ^ 28 ∧ t.alternates = ⟨0, 2⟩ :: List.replicate 255 ⟨0, 2⟩ := by
  refine ⟨?_, rfl⟩
  rw [toolPayload_length]
  decide +kernel

/-- A descriptor with something to start the tool with is freed twice, by the function that makes it … -/
theorem c89_not_initialize {i : Init} (h : InitOk i) {id : Nat} (hid : id ≠ 0) (lower upper : Nat) :
    newDesc id lower upper (some (initBytes i)) = .ub := by
  unfold newDesc
  rw [if_neg hid]
  simp only
  rw [Parses.parse (parses_init h)]
  rfl

example : newDesc 9 5 0 (some (initBytes exInit)) = .ub := c89_not_initialize exInit_ok (by decide) _ _

/-- … and by those that use one which comes from elsewhere. -/
theorem c89_not_initialized {d : Desc} (h : DescOk d) (hi : d.init ≠ none) (data : Bytes) :
    addDescData (.ok ()) (descBytes d) data = .ub ∧
      ∀ l : List Desc, (∀ x ∈ l, DescOk x) → (∀ x ∈ l, x.init = none) → (l.flatMap descBytes).length < 2 ^ 28 →
        addDesc (.ok ()) (updateBytes l) (descBytes d) = .ub := by
  have hd : destroy d = .ub := by
    unfold destroy
    rw [if_pos (Option.isSome_iff_ne_none.2 hi)]
  refine ⟨?_, fun l h1 h2 h3 => ?_⟩
  · unfold addDescData
    rw [Parses.parse (parses_desc' (get := asDesc (.ok ())) (fun _ => rfl) h), Res.ok_bind, hd]
    rfl
  · unfold addDesc
    rw [Parses.parse (parses_update h1 h3), Res.ok_bind, destroyAll_none l h2, Res.ok_bind,
      Parses.parse (parses_desc' (get := getDescOr (.ok ()) .badData) (fun _ => rfl) h), Res.ok_bind, hd]
    rfl

example : addDesc (.ok ()) (updateBytes [exUrl]) (descBytes (exDesc (some exInit))) = .ub := by decide +kernel

/-- A descriptor for the id 0 needs a URL, which cannot be given: `NULL` is dereferenced. -/
theorem c89_not_zero_id {id : Nat} (h : id ≠ 0) : newDesc id 0 0 none = .ub := by
  unfold newDesc
  rw [if_neg h]
  rfl

example : newDesc 9 0 0 none = .ub := c89_not_zero_id (by decide)

/-- Data added to a descriptor with a URL vanish. -/
theorem c89_not_dropped {d : Desc} (h : DescOk d) (hz : d.tool = ⟨0, 0⟩) {x : XData} (hx : XOk x) :
    addDescData (.ok ()) (descBytes d) (xBytes x) = .ok (descBytes d) := by
  have hk := h.kind
  rw [if_pos hz] at hk
  have hs := h.size
  unfold addDescData
  have hdes : destroy d = .ok () := by unfold destroy; simp [hk.2.1]
  rw [Parses.parse (parses_desc' (get := asDesc (.ok ())) (fun _ => rfl) h), Res.ok_bind, hdes, Res.ok_bind,
    Parses.parse (parses_x hx), Res.ok_bind]
  have hsz : descSize { d with data := d.data ++ [x] } = descSize d := by
    unfold descSize
    simp only
    rw [if_pos ((isZero_iff _).2 hz), if_pos ((isZero_iff _).2 hz)]
  have hput : ∀ n, putDesc n { d with data := d.data ++ [x] } = putDesc n d := by
    intro n
    unfold putDesc
    simp only
    rw [if_pos ((isZero_iff _).2 hz), if_pos ((isZero_iff _).2 hz)]
  have := written_desc h
  unfold writeDesc at this ⊢
  rw [hsz]
  simp only [hput]
  exact this

example : addDescData (.ok ()) (descBytes exUrl) (xBytes exData) = .ok (descBytes exUrl) :=
  c89_not_dropped exUrl_ok (by decide) exData_ok

/-- By the rules of C no tool can be read. -/
theorem c89_not_defined {t : Tool} (h : ToolOk t) (url : Bytes) : addUrl .ub (toolBytes t) url = .ub := by
  have hs := h.size
  have hbody : ∀ n, getTool .ub n ⟨toolPayload t, 5⟩ = .ub := by
    intro n
    unfold getTool toolPayload
    rw [P.bind_apply, parses_id h.id]
    simp only
    unfold getFlag
    rw [P.bind_apply, P.bind_apply, parses_get8' (flags_lt t)]
    rfl
  have : parse (getDesc (asTool .ub)) (toolBytes t) = .ub := by
    unfold parse toolBytes descr
    rw [be1]
    unfold getDesc
    simp only [List.singleton_append]
    rw [getLength_bytes (by omega) (by omega) (by omega)]
    simp only
    have et : (UInt8.ofNat 0x63).toNat = 0x63 := by decide
    rw [et]
    unfold asTool
    rw [if_pos rfl, hbody]
    rfl
  unfold addUrl
  rw [this]
  rfl

example : addUrl .ub (toolBytes exTool) [104] = .ub := c89_not_defined exTool_ok _

end Verif.Ipmp
