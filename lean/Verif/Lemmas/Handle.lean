import Verif.Spec.Handle

namespace Verif.Hdl

open Spec

/-- Contents of a handle. -/
def abs (h : Handle) : AHandle :=
  ⟨h.block.take h.offset, (h.block.drop h.offset).take h.size⟩

/-- Record invariant: the block is exactly `offset + allocatedSize` bytes. -/
structure WF (h : Handle) : Prop where
  len : h.block.length = h.offset + h.alloc
  size : h.size ≤ h.alloc
  lt : h.offset + h.alloc < 4294967296
  off : h.offset < 2147483648
  null : h.null = true → h.offset = 0 ∧ h.alloc = 0

theorem abs_hidden_length {h : Handle} (w : WF h) : (abs h).hidden.length = h.offset := by
  simp [abs, w.len]

theorem abs_view_length {h : Handle} (w : WF h) : (abs h).view.length = h.size := by
  have := w.size
  simp [abs, w.len]; omega

theorem resize_length (b : List Cell) (n : Nat) : (resize b n).length = n := by
  simp [resize]; omega

theorem resize_getElem? (b : List Cell) (n i : Nat) (h1 : i < n) (h2 : i < b.length) :
    (resize b n)[i]? = b[i]? := by
  unfold resize
  rw [List.getElem?_append_left (by simp; omega), List.getElem?_take_of_lt h1]

theorem view_getElem? (h : Handle) (i : Nat) (hi : i < h.size) :
    (abs h).view[i]? = h.block[h.offset + i]? := by
  simp [abs, List.getElem?_take_of_lt hi]

theorem wf_new (n : Nat) (hn : n < 4294967296) :
    WF { block := List.replicate n (some 0), null := n = 0, size := n, alloc := n, offset := 0 } := by
  constructor <;> simp <;> omega

theorem wf_setSize {h h' : Handle} {n : Nat} {mem : Bool} (w : WF h)
    (hn : h.offset + n < 4294967296) (e : setSize h n mem = .ok h') :
    WF h' ∧ Resized (abs h) (abs h') n ∧ h'.offset = h.offset ∧ h'.size = n := by
  have hl := w.len
  have ho := w.off
  have hs := w.size
  unfold setSize at e
  split at e
  · injection e with e; subst e
    have w' : WF { h with size := n } := { w with size := by simp; omega }
    refine ⟨w', ⟨rfl, abs_view_length w', ?_⟩, rfl, rfl⟩
    intro i h1 h2
    rw [abs_view_length w] at h1
    rw [abs_view_length w'] at h2
    rw [view_getElem? _ _ h1, view_getElem? _ _ h2]
  · split at e
    · injection e with e; subst e
      rw [Nat.mod_eq_of_lt (by omega)]
      have hb : (if h.null then resize [] (n + h.offset) else resize h.block (n + h.offset)) =
          resize h.block (n + h.offset) := by
        split
        · have := w.null ‹_›
          have : h.block = [] := by
            apply List.eq_nil_of_length_eq_zero; omega
          rw [this]
        · rfl
      rw [hb]
      have w' : WF { h with block := resize h.block (n + h.offset), null := false, size := n, alloc := n } := by
        constructor
        · simp [resize_length]; omega
        · simp
        · exact hn
        · exact ho
        · simp
      refine ⟨w', ⟨?_, abs_view_length w', ?_⟩, rfl, rfl⟩
      · simp only [abs]
        apply List.ext_getElem?
        intro i
        by_cases hi : i < h.offset
        · rw [List.getElem?_take_of_lt hi, List.getElem?_take_of_lt hi,
            resize_getElem? _ _ _ (by omega) (by omega)]
        · rw [List.getElem?_eq_none (by simp [resize_length]; omega),
            List.getElem?_eq_none (by simp; omega)]
      · intro i h1 h2
        rw [abs_view_length w] at h1
        rw [abs_view_length w'] at h2
        rw [view_getElem? _ _ h1, view_getElem? _ _ h2]
        simp only [] at h2 ⊢
        rw [resize_getElem? _ _ _ (by omega) (by omega)]
    · exact absurd e (by simp)

theorem setSize_not_ub (h : Handle) (n : Nat) (mem : Bool) : setSize h n mem ≠ .ub := by
  unfold setSize; split
  · simp
  · split <;> simp

theorem take_append_view {h : Handle} :
    (abs h).hidden ++ (abs h).view = h.block.take (h.offset + h.size) := by
  simp only [abs]
  rw [List.take_add]

theorem wf_setOffset {h : Handle} {o : Nat} {mem : Bool} (w : WF h) (ho : o < 2147483648) :
    (∃ h', setOffset h o mem = .ok h' ∧ WF h' ∧ Moved (abs h) (abs h') o) ∨
    (∃ e, setOffset h o mem = .err e) := by
  have hl := w.len
  have hoff := w.off
  have hs := w.size
  have hlt := w.lt
  unfold setOffset
  by_cases hd : (o + 4294967296 - h.offset) % 4294967296 = 0
  · left
    simp only [hd, if_true]
    have : o = h.offset := by omega
    exact ⟨h, rfl, w, by rw [abs_hidden_length w, this], Or.inl rfl⟩
  · simp only [hd, if_false]
    by_cases hc : o > (h.size + h.offset) % 4294967296 ∧ h.size ≠ 0
    · right; simp only [hc, and_self, if_true, ne_eq]
      exact ⟨_, rfl⟩
    · simp only [if_neg hc]
      rw [Nat.mod_eq_of_lt (show h.size + h.offset < 4294967296 by omega)] at hc
      by_cases hz : h.size = 0 ∧ (o + 4294967296 - h.offset) % 4294967296 < 2147483648
      · simp only [if_pos hz]
        have hoo : h.offset < o := by omega
        have hde : (o + 4294967296 - h.offset) % 4294967296 = o - h.offset := by omega
        rw [hde]
        cases hs1 : setSize h (o - h.offset) mem with
        | err e => right; exact ⟨e, rfl⟩
        | ub => exact absurd hs1 (setSize_not_ub _ _ _)
        | ok h1 =>
          left
          obtain ⟨w1, r1, e1, e2⟩ := wf_setSize w (by omega) hs1
          have hl1 := w1.len
          have ha1 := w1.size
          have hlt1 := w1.lt
          simp only []
          rw [if_pos (by omega)]
          refine ⟨_, rfl, ?_, ?_⟩
          · constructor <;> simp only []
            · omega
            · omega
            · omega
            · exact ho
            · intro hn; have := w1.null hn; omega
          · have hz0 : h1.size - (o - h.offset) = 0 := by omega
            have hm : (h1.size + 4294967296 - (o - h.offset)) % 4294967296 = 0 := by omega
            refine ⟨by simp [abs]; omega, Or.inr ⟨?_, ?_, ?_⟩⟩
            · apply List.eq_nil_of_length_eq_zero; rw [abs_view_length w]; exact hz.1
            · simp [abs, hm]
            · rw [abs_hidden_length w, ← r1.1]
              simp only [abs, e1]
              rw [List.take_take, Nat.min_eq_left (by omega)]
      · simp only [if_neg hz]
        have hob : o ≤ h.block.length := by omega
        simp only [if_pos hob]
        left
        refine ⟨_, rfl, ?_, ?_⟩
        · constructor <;> simp only []
          · omega
          · omega
          · omega
          · exact ho
          · intro hn; have := w.null hn; omega
        · refine ⟨by simp [abs]; omega, Or.inl ?_⟩
          rw [take_append_view, take_append_view]
          congr 1
          simp only []
          omega

theorem blit_ok {b src : List Cell} {pos : Nat} (h : pos + src.length ≤ b.length) :
    blit b pos src = .ok (b.take pos ++ src ++ b.drop (pos + src.length)) := by
  simp [blit, h]

theorem wf_cat {σ : Store} {d s : Nat} {dh sh : Handle} (hd : σ[d]? = some dh) (hs : σ[s]? = some sh)
    (wd : WF dh) (ws : WF sh) (hne : d ≠ s) (hlt : dh.offset + dh.size + sh.size < 4294967296) :
    ∃ h', cat σ d s true = .ok (σ.set d h') ∧ WF h' ∧ (abs h').hidden = (abs dh).hidden ∧
      (abs h').view = (abs dh).view ++ (abs sh).view := by
  have hdl : d < σ.length := (List.getElem?_eq_some_iff.mp hd).1
  have l1 := wd.len
  have l2 := ws.len
  have s1 := wd.size
  have s2 := ws.size
  have lt1 := wd.lt
  -- the destination record before the copy
  have key : ∀ p : Handle, WF p → p.offset = dh.offset → p.size = dh.size + sh.size →
      (∀ i, i < dh.offset + dh.size → p.block[i]? = dh.block[i]?) →
      ∃ b, blit p.block (p.offset + dh.size) ((sh.block.drop sh.offset).take sh.size) = .ok b ∧
        WF { p with block := b } ∧ (abs { p with block := b }).hidden = (abs dh).hidden ∧
        (abs { p with block := b }).view = (abs dh).view ++ (abs sh).view := by
    intro p wp po ps hp
    have lp := wp.len
    have sp := wp.size
    have hsl : ((sh.block.drop sh.offset).take sh.size).length = sh.size := by simp; omega
    have hb := blit_ok (b := p.block) (src := (sh.block.drop sh.offset).take sh.size)
      (pos := p.offset + dh.size) (by omega)
    refine ⟨_, hb, ?_, ?_, ?_⟩
    · exact { wp with len := by simp only [List.length_append, List.length_take, List.length_drop]; omega }
    · simp only [abs, po]
      apply List.ext_getElem?
      intro i
      by_cases hi : i < dh.offset
      · rw [List.getElem?_take_of_lt hi, List.getElem?_take_of_lt hi,
          List.append_assoc, List.getElem?_append_left (by simp; omega),
          List.getElem?_take_of_lt (by omega), hp i (by omega)]
      · rw [List.getElem?_eq_none (by simp; omega), List.getElem?_eq_none (by simp; omega)]
    · simp only [abs, po, ps]
      apply List.ext_getElem?
      intro i
      by_cases hi : i < dh.size
      · rw [List.getElem?_take_of_lt (by omega), List.getElem?_drop, List.append_assoc,
          List.getElem?_append_left (by simp; omega), List.getElem?_take_of_lt (by omega),
          hp _ (by omega), List.getElem?_append_left (by simp; omega),
          List.getElem?_take_of_lt hi, List.getElem?_drop]
      · by_cases hi2 : i < dh.size + sh.size
        · rw [List.getElem?_take_of_lt hi2, List.getElem?_drop, List.append_assoc,
            List.getElem?_append_right (by simp; omega),
            List.getElem?_append_left (by simp; omega),
            List.getElem?_append_right (by simp; omega)]
          congr 1
          simp; omega
        · rw [List.getElem?_eq_none (by simp; omega), List.getElem?_eq_none (by simp; omega)]
  have hread : readView sh sh.size = .ok ((sh.block.drop sh.offset).take sh.size) := by
    simp [readView]; omega
  unfold cat
  simp only [hd, hs]
  rw [Nat.mod_eq_of_lt (show dh.size + sh.size < 4294967296 by omega),
    Nat.mod_eq_of_lt (show dh.size + sh.size + dh.offset < 4294967296 by omega),
    Nat.mod_eq_of_lt (show sh.size + dh.offset < 4294967296 by omega)]
  have hset : ∀ p : Handle, (σ.set d p)[s]? = some sh := by
    intro p; rw [List.getElem?_set_ne hne]; exact hs
  by_cases hc : dh.alloc ≥ dh.size + sh.size
  · simp only [if_pos hc, hset, hread]
    obtain ⟨b, hb, h1, h2, h3⟩ := key { dh with size := dh.size + sh.size }
      { wd with size := hc } rfl rfl (fun _ _ => rfl)
    simp only [] at hb
    rw [hb]
    exact ⟨_, by simp only [List.set_set], h1, h2, h3⟩
  · have hbk : (if dh.null = true then resize [] (sh.size + dh.offset)
        else resize dh.block (dh.size + sh.size + dh.offset)) =
        resize dh.block (dh.size + sh.size + dh.offset) := by
      split
      · have := wd.null ‹_›
        have e : dh.block = [] := by apply List.eq_nil_of_length_eq_zero; omega
        rw [e]; congr 1; omega
      · rfl
    simp only [if_neg hc, if_true, hset, hread, hbk]
    obtain ⟨b, hb, h1, h2, h3⟩ := key { dh with
        block := resize dh.block (dh.size + sh.size + dh.offset)
        null := false
        size := dh.size + sh.size
        alloc := dh.size + sh.size }
      { len := by simp [resize_length]; omega
        size := by simp
        lt := by simp; omega
        off := wd.off
        null := by simp } rfl rfl (fun i hi => by
          exact resize_getElem? _ _ _ (by omega) (by omega))
    simp only [] at hb
    rw [hb]
    exact ⟨_, by simp only [List.set_set], h1, h2, h3⟩

theorem changes_set {σ : Store} {i : Nat} {h h' : Handle} {R : AHandle → AHandle → Prop}
    (hi : σ[i]? = some h) (hr : R (abs h) (abs h')) :
    Changes (σ.map abs) ((σ.set i h').map abs) i R := by
  have hil : i < σ.length := (List.getElem?_eq_some_iff.mp hi).1
  refine ⟨by simp, ?_, abs h, abs h', by simp [hi], by simp [hil], hr⟩
  intro j hj
  simp [List.getElem?_set_ne (Ne.symm hj)]

/-- Every handle of the store is well formed. -/
def WFS (σ : Store) : Prop := ∀ (i : Nat) (h : Handle), σ[i]? = some h → WF h

theorem wfs_set {σ : Store} {i : Nat} {h : Handle} (w : WFS σ) (wh : WF h) : WFS (σ.set i h) := by
  intro j g hg
  by_cases hj : i = j
  · subst hj
    rw [List.getElem?_set] at hg
    simp at hg
    exact hg.2 ▸ wh
  · rw [List.getElem?_set_ne hj] at hg; exact w j g hg

theorem onHandle_none {σ : Store} {i : Nat} (f : Handle → Res Handle) (hi : σ[i]? = none) :
    onHandle σ i f = .err .badParam := by simp only [onHandle, hi]

theorem onHandle_ok {σ : Store} {i : Nat} {f : Handle → Res Handle} {h h' : Handle}
    (hi : σ[i]? = some h) (e : f h = .ok h') : onHandle σ i f = .ok (none, σ.set i h') := by
  simp only [onHandle, hi, e]

theorem onHandle_err {σ : Store} {i : Nat} {f : Handle → Res Handle} {h : Handle} {er : Err}
    (hi : σ[i]? = some h) (e : f h = .err er) : onHandle σ i f = .err er := by
  simp only [onHandle, hi, e]

theorem bind_of_ok {α : Type u} {β : Type v} {x : Res α} {f : α → Res β} {a : α} (h : x = .ok a) :
    x.bind f = f a := by subst h; rfl

theorem bind_of_err {α : Type u} {β : Type v} {x : Res α} {f : α → Res β} {e : Err}
    (h : x = .err e) : x.bind f = .err e := by subst h; rfl

theorem step_follows {σ : Store} (w : WFS σ) (op : Op) (ha : Allowed (σ.map abs) op) :
    (∃ r σ', step σ op = .ok (r, σ') ∧ WFS σ' ∧ Effect (σ.map abs) (σ'.map abs) op r) ∨
    (∃ e, step σ op = .err e) := by
  cases op with
  | new n mem =>
    simp only [Allowed] at ha
    by_cases hm : n ≠ 0 ∧ mem = false
    · right
      have e : newHandle n mem = .err .noMemory := by unfold newHandle; rw [if_pos hm]
      exact ⟨.noMemory, bind_of_err e⟩
    · left
      have e : newHandle n mem = .ok ⟨List.replicate n (some 0), decide (n = 0), n, n, 0⟩ := by
        unfold newHandle; rw [if_neg hm]
      refine ⟨_, _, bind_of_ok e, ?_, rfl, by simp [abs]⟩
      intro j g hg
      by_cases hj : j < σ.length
      · rw [List.getElem?_append_left hj] at hg; exact w j g hg
      · rw [List.getElem?_append_right (by omega)] at hg
        rcases hjj : j - σ.length with _ | k
        · rw [hjj] at hg
          simp only [List.getElem?_cons_zero, Option.some.injEq] at hg
          subst hg
          exact wf_new n ha
        · rw [hjj] at hg; simp at hg
  | setSize i n mem =>
    simp only [Allowed] at ha
    cases hi : σ[i]? with
    | none => right; exact ⟨_, onHandle_none _ hi⟩
    | some h =>
      have wh := w i h hi
      have hn := ha (abs h) (by simp [hi])
      rw [abs_hidden_length wh] at hn
      cases hss : setSize h n mem with
      | err e => right; exact ⟨e, onHandle_err hi hss⟩
      | ub => exact absurd hss (setSize_not_ub _ _ _)
      | ok h' =>
        left
        obtain ⟨w', r', _, _⟩ := wf_setSize wh hn hss
        exact ⟨_, _, onHandle_ok hi hss, wfs_set w w', rfl, changes_set hi r'⟩
  | setOffset i o mem =>
    simp only [Allowed] at ha
    cases hi : σ[i]? with
    | none => right; exact ⟨.badParam, onHandle_none _ hi⟩
    | some h =>
      have wh := w i h hi
      rcases wf_setOffset (mem := mem) wh ha with ⟨h', e, w', r⟩ | ⟨er, e⟩
      · left
        exact ⟨none, σ.set i h', onHandle_ok hi e, wfs_set w w', rfl, changes_set hi r⟩
      · right; exact ⟨er, onHandle_err hi e⟩
  | cat d s mem =>
    simp only [Allowed] at ha
    obtain ⟨hne, rfl, hlt⟩ := ha
    cases hd : σ[d]? with
    | none =>
      right
      have e : cat σ d s true = .err .badParam := by unfold cat; rw [hd]
      exact ⟨_, bind_of_err e⟩
    | some dh =>
      cases hs : σ[s]? with
      | none =>
        right
        have e : cat σ d s true = .err .badParam := by unfold cat; rw [hd, hs]
        exact ⟨_, bind_of_err e⟩
      | some sh =>
        left
        have wd := w d dh hd
        have ws := w s sh hs
        have := hlt (abs dh) (abs sh) (by simp [hd]) (by simp [hs])
        rw [abs_hidden_length wd, abs_view_length wd, abs_view_length ws] at this
        obtain ⟨h', e, w', r1, r2⟩ := wf_cat hd hs wd ws hne this
        exact ⟨none, σ.set d h', bind_of_ok e, wfs_set w w', rfl, abs sh, by simp [hs],
          changes_set hd ⟨r1, r2⟩⟩
  | getSize i =>
    unfold step
    cases hi : σ[i]? with
    | none => right; simp only [hi]; exact ⟨_, rfl⟩
    | some h =>
      left
      simp only [hi]
      refine ⟨_, _, rfl, w, rfl, abs h, by simp [hi], ?_⟩
      rw [abs_view_length (w i h hi)]

theorem run_follows (ops : List Op) : ∀ σ : Store, WFS σ →
    Follows (σ.map abs) ops ((run σ ops).map (fun p => (p.1, p.2.map abs))) := by
  induction ops with
  | nil => intro σ _; simp [Follows, run]
  | cons op ops ih =>
    intro σ w
    unfold Follows run
    intro ha
    rcases step_follows w op ha with ⟨r, σ', e, w', eff⟩ | ⟨er, e⟩
    · rw [e]; exact ⟨eff, ih σ' w'⟩
    · rw [e]; exact ⟨rfl, ih σ w⟩

end Verif.Hdl
