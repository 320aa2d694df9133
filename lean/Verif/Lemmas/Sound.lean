import Verif.Spec.Sound
import Verif.Lemmas.Protect

/-!
# Lemmas on channel layout, downmix instructions and loudness
-/

namespace Verif.Snd

open Verif.Str (BreaksAt parsesAt_assertRead fullBox_reads fullBox_breaks)
open Verif.Ent (Class Kid Reads Readable GoodType adds)
open Verif.Rows (VF assertRead)

/-! ## Loops -/

theorem whileLoop_step {α β σ : Type} {p : P α} {add : σ → α → σ} (g : β → Bytes) (f : β → α) {xs : List β}
    (h : ∀ x ∈ xs, Parses p (g x) (f x) ∧ g x ≠ []) {n size k : Nat} {acc : σ} {r : Bytes}
    (hs : k + (xs.flatMap g).length ≤ size) :
    whileLoop p add (n + xs.length) size acc ⟨xs.flatMap g ++ r, k⟩ =
      whileLoop p add n size ((xs.map f).foldl add acc) ⟨r, k + (xs.flatMap g).length⟩ := by
  induction xs generalizing k acc with
  | nil => simp
  | cons x xs ih =>
    obtain ⟨h1, h2⟩ := h x (by simp)
    have h3 := List.length_pos_iff.2 h2
    simp only [List.flatMap_cons, List.length_append, List.length_cons, List.append_assoc] at hs ⊢
    rw [← Nat.add_assoc n xs.length 1, whileLoop]
    simp only
    rw [if_pos (by omega), h1]
    simp only
    rw [ih (fun y hy => h y (by simp [hy])) (by omega)]
    simp [Nat.add_assoc]

theorem flatMap_ge {β : Type} {g : β → Bytes} {xs : List β} (h : ∀ x ∈ xs, g x ≠ []) :
    xs.length ≤ (xs.flatMap g).length := by
  induction xs with
  | nil => simp
  | cons x xs ih =>
    have := ih fun y hy => h y (by simp [hy])
    have := List.length_pos_iff.2 (h x (by simp))
    simp only [List.flatMap_cons, List.length_append, List.length_cons]
    omega

theorem parsesAt_while {α β σ : Type} {p : P α} {add : σ → α → σ} (g : β → Bytes) (f : β → α) {xs : List β}
    (h : ∀ x ∈ xs, Parses p (g x) (f x) ∧ g x ≠ []) {size k : Nat} {acc : σ}
    (hs : size = k + (xs.flatMap g).length) :
    ParsesAt (whileBytes p add acc size) k (xs.flatMap g) ((xs.map f).foldl add acc) := by
  intro r
  unfold whileBytes
  have hl := flatMap_ge fun x hx => (h x hx).2
  obtain ⟨m, hm⟩ : ∃ m, (xs.flatMap g ++ r).length + 1 = (m + 1) + xs.length :=
    ⟨(xs.flatMap g ++ r).length - xs.length, by simp only [List.length_append]; omega⟩
  simp only [hm]
  rw [whileLoop_step g f h (by omega), whileLoop]
  simp only
  rw [if_neg (by omega)]

theorem foldl_append {α : Type} (l acc : List α) : l.foldl (fun l s => l ++ [s]) acc = acc ++ l := by
  induction l generalizing acc with
  | nil => simp
  | cons x l ih => simp [ih]

theorem breaksAt_assertRead {α : Type} {h : Hdr} {k : Nat} (v : α) {bs : Bytes} (hk : k ≠ h.size) :
    BreaksAt (assertRead h v) k bs := by
  intro r
  unfold assertRead
  rw [P.bind_apply]
  simp only [P.bytesRead]
  rw [if_pos hk]
  rfl

theorem fullBox_length (type v f : Nat) (payload : Bytes) : (fullBox type v f payload).length = 12 + payload.length := by
  simp [fullBox, box]; omega

theorem be1_mod (v : Nat) : be 1 (v % 256) = be 1 v := by
  rw [be1, be1]
  exact congrArg (· :: []) UInt8.ofNat_mod_size

/-! ## Positions -/

theorem Speaker.emits (x : Speaker) : Emits x.put x.wire := by
  unfold Speaker.put Speaker.wire
  refine (emits_put8 _).seq ?_
  by_cases h : x.position = 126
  · rw [if_pos h, if_pos (show x.position = explicit from h)]
    exact (emits_put16 _).seq (emits_put8 _)
  · rw [if_neg h, if_neg (show ¬ x.position = explicit from h)]
    exact emits_skip

theorem Speaker.parses {x : Speaker} (h : x.Fits) {room : Bool} (hr : room = true ∨ x.position ≠ 126) :
    Parses (Speaker.get room) x.wire x := by
  unfold Speaker.get Speaker.wire
  refine (parses_get8' h.position).bind ?_
  by_cases h1 : x.position = 126
  · have hr : room = true := hr.resolve_right (by simpa using h1)
    subst hr
    rw [if_pos h1, if_pos (show x.position = explicit from h1)]
    refine (parses_get16' h.azimuth).bind ?_
    refine (parses_get8' h.elevation).bind_nil ?_
    exact parses_pure _
  · rw [if_neg h1, if_neg (show ¬ x.position = explicit from h1)]
    obtain ⟨e1, e2⟩ := h.rest h1
    have : x = ⟨x.position, 0, 0⟩ := by
      obtain ⟨a, b, c⟩ := x
      simp only at e1 e2
      rw [e1, e2]
    rw [show (pure ⟨x.position, 0, 0⟩ : P Speaker) = pure x from by rw [← this]]
    exact parses_pure _

theorem Speaker.ne_nil (x : Speaker) : x.wire ≠ [] := by simp [Speaker.wire, be]

theorem Speaker.length (x : Speaker) : x.wire.length = x.size := by
  unfold Speaker.wire Speaker.size
  by_cases h : x.position = 126
  · rw [if_pos h, if_pos (show x.position = explicit from h)]; rfl
  · rw [if_neg h, if_neg (show ¬ x.position = explicit from h)]; rfl

theorem places_length (ss : List Speaker) : (placesWire ss).length = (ss.map Speaker.size).sum := by
  induction ss with
  | nil => rfl
  | cons x ss ih =>
    rw [List.map_cons, List.sum_cons, ← ih, ← Speaker.length]
    simp [placesWire]

theorem places_le (ss : List Speaker) : (placesWire ss).length ≤ 4 * ss.length := by
  induction ss with
  | nil => simp [placesWire]
  | cons x ss ih =>
    have : x.wire.length ≤ 4 := by rw [Speaker.length]; unfold Speaker.size; split <;> omega
    simp only [placesWire, List.flatMap_cons, List.length_append, List.length_cons] at ih ⊢
    omega

theorem Safe.at {room : Bool} {ss : List Speaker} (h : Safe room ss) {x : Speaker} (hx : x ∈ ss) :
    room = true ∨ x.position ≠ 126 := h.elim .inl fun h => .inr (h x hx)

/-! ## Version 0 -/

theorem Scene0.channels_iff (s : Scene0) {x : Chnl} (h : x.structure_ = s.bits) :
    x.channels ↔ s.part.bit = 1 := by
  unfold Chnl.channels
  rw [h, Scene0.bits]
  have : s.part.bit ≤ 1 := by cases s.part <;> simp [Part0.bit]
  split <;> omega

theorem Scene0.objects_iff (s : Scene0) {x : Chnl} (h : x.structure_ = s.bits) :
    x.objects ↔ s.objects.isSome = true := by
  unfold Chnl.objects
  rw [h, Scene0.bits]
  have : s.part.bit ≤ 1 := by cases s.part <;> simp [Part0.bit]
  cases s.objects <;> simp <;> omega

theorem Scene0.bits_lt {s : Scene0} (h : s.other < 64) : s.bits < 256 := by
  unfold Scene0.bits
  have : s.part.bit ≤ 1 := by cases s.part <;> simp [Part0.bit]
  split <;> omega

theorem Scene0.objects_length (o : Option Nat) : (o.elim [] (be 1)).length = if o.isSome then 1 else 0 := by
  cases o <;> simp

theorem Scene0.size {s : Scene0} (hf : s.Fits) {x : Chnl} (h : s.Held x) :
    x.size 0 = .ok (12 + s.wire.length) := by
  unfold Chnl.size
  rw [if_pos rfl]
  simp only [Scene0.wire, List.length_append, be_length, Scene0.objects_length]
  have ho : (if x.objects then (1:Nat) else 0) = if s.objects.isSome then 1 else 0 :=
    by simp only [s.objects_iff h.bits]
  have e : ∀ n, (if x.objects then n + 1 else n) = n + if s.objects.isSome then 1 else 0 := by
    intro n; rw [← ho]; split <;> rfl
  simp only [e]
  have h1 : (if s.objects.isSome then (1:Nat) else 0) ≤ 1 := by split <;> omega
  generalize (if s.objects.isSome then (1:Nat) else 0) = o at *
  have hp := h.part
  have hc := s.channels_iff h.bits
  cases hq : s.part with
  | none =>
    rw [hq] at hc
    rw [if_neg (by rw [hc]; simp [Part0.bit])]
    simp only [Res.ok_bind, Part0.wire, List.length_nil]
    rw [Nat.mod_eq_of_lt (by omega)]
    congr 1; omega
  | listed ss =>
    rw [hq] at hc hp
    obtain ⟨p1, p2, p3⟩ := hp
    have hs : ss.length < 65536 := by have := hf.2.1; rw [hq] at this; exact this.1
    have := places_le ss
    have hlen : ss.length ≤ x.layouts.length := by
      have := congrArg List.length p3
      simp only [List.length_take] at this
      omega
    rw [if_pos (by rw [hc]; rfl), if_pos p1, entries, p2, if_pos hlen, p3]
    simp only [Res.ok_bind, Part0.wire, List.length_append, be_length]
    rw [← places_length, Nat.mod_eq_of_lt (by omega)]
    congr 1; omega
  | known l m =>
    rw [hq] at hc hp
    have hl : 0 < l := by have := hf.2.1; rw [hq] at this; exact this.1
    rw [if_pos (by rw [hc]; rfl), if_neg (by rw [hp.1]; omega)]
    simp only [Res.ok_bind, Part0.wire, List.length_append, be_length]
    rw [Nat.mod_eq_of_lt (by omega)]
    congr 1; omega

theorem Scene0.wire_le {s : Scene0} (hf : s.Fits) : s.wire.length ≤ 262200 := by
  simp only [Scene0.wire, List.length_append, be_length, Scene0.objects_length]
  have h1 : (if s.objects.isSome then (1:Nat) else 0) ≤ 1 := by split <;> omega
  have h2 := hf.2.1
  cases hq : s.part with
  | none => simp only [Part0.wire, List.length_nil]; omega
  | listed ss =>
    rw [hq] at h2
    have := places_le ss
    have := h2.1
    simp only [Part0.wire, List.length_append, be_length]; omega
  | known l m => simp only [Part0.wire, List.length_append, be_length]; omega

theorem Scene0.emits {s : Scene0} (hf : s.Fits) {x : Chnl} (h : s.Held x) (flags : Nat) :
    runW (12 + s.wire.length) (x.serialize 0 flags) = .ok (fullBox (fcc 'c' 'h' 'n' 'l') 0 flags s.wire) := by
  unfold Chnl.serialize
  rw [Scene0.size hf h]
  simp only [if_true]
  have := Scene0.wire_le hf
  have hpart : Emits (if x.channels then put8 x.definedLayout ;;
      if x.definedLayout = 0 then W.each Speaker.put (x.layouts.take x.channelCount) else put64 x.omitted
      else W.skip) s.part.wire := by
    have hp := h.part
    have hc := s.channels_iff h.bits
    cases hq : s.part with
    | none =>
      rw [hq] at hc
      rw [if_neg (by rw [hc]; simp [Part0.bit])]
      exact emits_skip
    | listed ss =>
      rw [hq] at hc hp
      obtain ⟨p1, p2, p3⟩ := hp
      rw [if_pos (by rw [hc]; rfl), if_pos p1, p1, p2, p3]
      exact (emits_put8 _).seq (Emits.each ss fun y _ => Speaker.emits y)
    | known l m =>
      rw [hq] at hc hp
      have hl : 0 < l := by have := hf.2.1; rw [hq] at this; exact this.1
      rw [if_pos (by rw [hc]; rfl), if_neg (by rw [hp.1]; omega), hp.1, hp.2]
      exact (emits_put8 _).seq (emits_put64 _)
  have hobj : Emits (if x.objects then put8 x.objectCount else W.skip) (s.objects.elim [] (be 1)) := by
    have hc := s.objects_iff h.bits
    have hv := h.objects
    cases ho : s.objects with
    | none => rw [if_neg (by rw [hc, ho]; simp)]; exact emits_skip
    | some n => rw [if_pos (by rw [hc, ho]; rfl), hv n (by rw [ho]; rfl)]; exact emits_put8 _
  have hw : EmitsFull (serFull (12 + s.wire.length) typeChnl 0 flags ;; (put8 x.structure_ ;;
      (if x.channels then put8 x.definedLayout ;;
      if x.definedLayout = 0 then W.each Speaker.put (x.layouts.take x.channelCount) else put64 x.omitted
      else W.skip) ;; (if x.objects then put8 x.objectCount else W.skip)) ;; W.assertFull)
      (((be 4 (12 + s.wire.length) ++ be 4 typeChnl) ++ (be 1 0 ++ be 3 flags)) ++ s.wire) := by
    refine (emits_serFull _ _ _ _).then (Emits.thenAssert ?_)
    unfold Scene0.wire
    rw [h.bits]
    exact (emits_put8 _).seq (hpart.seq hobj)
  rw [hw.runW (by simp; omega) (by omega), Str.fullBox_eq]
  simp only [List.append_assoc]
  rfl

/-- The loop over positions to the end of the box. -/
theorem places_while {ss : List Speaker} (h : ∀ x ∈ ss, x.Fits) {room : Bool} (hr : Safe room ss) {size k : Nat}
    (hs : size = k + (placesWire ss).length) :
    ParsesAt (whileBytes (Speaker.get room) (fun l s => l ++ [s]) [] size) k (placesWire ss) ss := by
  have := parsesAt_while (p := Speaker.get room) (add := fun l s => l ++ [s]) (acc := ([] : List Speaker))
    Speaker.wire id (xs := ss) (fun x hx => ⟨Speaker.parses (h x hx) (hr.at hx), x.ne_nil⟩) hs
  rw [List.map_id, foldl_append] at this
  exact this

theorem Part0.bit_iff (p : Part0) : p.bit = 1 ↔ p ≠ .none := by cases p <;> simp [Part0.bit]

theorem assertRead_ok {α : Type} {h : Hdr} {k : Nat} (v : α) (hk : k = h.size) : ParsesAt (assertRead h v) k [] v := by
  unfold assertRead
  refine parsesAt_bytesRead ?_
  rw [if_neg (by omega)]
  exact (parses_pure _).at _

theorem Scene0.parsesObjects {s : Scene0} (hf : s.Fits) {y : Chnl} (hy : y.structure_ = s.bits) (h0 : y.objectCount = 0) :
    Parses y.readObjects (s.objects.elim [] (be 1)) { y with objectCount := s.objects.getD 0 } := by
  unfold Chnl.readObjects
  have ho := s.objects_iff hy
  cases hs : s.objects with
  | none =>
    rw [if_neg (by rw [ho, hs]; simp)]
    have : y = { y with objectCount := 0 } := by rw [← h0]
    rw [Option.getD_none, ← this]
    exact parses_pure _
  | some n =>
    rw [if_pos (by rw [ho, hs]; rfl)]
    have := hf.2.2 n (by rw [hs]; rfl)
    exact (parses_get8' this).map _

/-- What is in memory after the channels. -/
def Scene0.mem' (s : Scene0) : Chnl :=
  match s.part with
  | .none => ⟨0, s.bits, 0, [], 0, 0, 0, 0, 0, 0, 0⟩
  | .listed ss => ⟨0, s.bits, 0, ss, 0, 0, 0, 0, 0, 0, 0⟩
  | .known l m => ⟨0, s.bits, l, [], m, 0, 0, 0, 0, 0, 0⟩

theorem Scene0.mem_eq (s : Scene0) : { s.mem' with objectCount := s.objects.getD 0 } = s.mem := by
  obtain ⟨o, p, n⟩ := s
  cases p <;> rfl

theorem Scene0.mem'_bits (s : Scene0) : s.mem'.structure_ = s.bits := by unfold Scene0.mem'; split <;> rfl
theorem Scene0.mem'_objects (s : Scene0) : s.mem'.objectCount = 0 := by unfold Scene0.mem'; split <;> rfl

theorem Scene0.parsesChannels {s : Scene0} (hf : s.Fits) {room : Bool} (hr : s.part.Safe room) {size k : Nat}
    (hk : (∀ ss, s.part ≠ .listed ss) ∨ size = k + s.part.wire.length) :
    ParsesAt (Chnl.readChannels0 room size ⟨0, s.bits, 0, [], 0, 0, 0, 0, 0, 0, 0⟩) k s.part.wire s.mem' := by
  unfold Chnl.readChannels0 Scene0.mem'
  have hc := s.channels_iff (x := ⟨0, s.bits, 0, [], 0, 0, 0, 0, 0, 0, 0⟩) rfl
  have h2 := hf.2.1
  cases hq : s.part with
  | none =>
    rw [hq] at hc
    rw [if_neg (by rw [hc]; simp [Part0.bit])]
    exact (parses_pure _).at _
  | listed ss =>
    rw [hq] at hc h2 hr hk
    have hk := hk.resolve_left fun h => h ss rfl
    rw [if_pos (by rw [hc]; rfl)]
    refine ParsesAt.bind ((parses_get8' (show 0 < 256 by decide)).at _) ?_
    rw [if_pos rfl]
    refine ParsesAt.bind_nil (places_while h2.2 hr ?_) ((parses_pure _).at _)
    simp [Part0.wire] at hk ⊢
    omega
  | known l m =>
    rw [hq] at hc h2
    rw [if_pos (by rw [hc]; rfl)]
    refine ParsesAt.bind ((parses_get8' h2.2.1).at _) ?_
    rw [if_neg (by have := h2.1; omega)]
    exact ((parses_get64' h2.2.2).map _).at _

/-- The scene is read back, unless the positions are listed before a number of objects. -/
theorem Scene0.parses {s : Scene0} (hf : s.Fits) {room : Bool} (hr : s.part.Safe room) {flags : Nat}
    (hfl : flags < 16777216) (hno : s.objects = none ∨ ∀ ss, s.part ≠ .listed ss) :
    ParsesAt (Chnl.parse room ⟨12 + s.wire.length, fcc 'c' 'h' 'n' 'l', [], 0, 8⟩) 8 (be 1 0 ++ be 3 flags ++ s.wire)
      ((0, flags), s.mem) := by
  unfold Chnl.parse
  refine ParsesAt.bind ((parses_versionFlags (by decide) hfl).at _) ?_
  simp only [if_true]
  have hlen : s.wire.length = 1 + (s.part.wire.length + (s.objects.elim [] (be 1)).length) := by
    simp [Scene0.wire]
  rw [show s.wire = be 1 s.bits ++ (s.part.wire ++ s.objects.elim [] (be 1)) from rfl] 
  refine ParsesAt.bind ((parses_get8' (Scene0.bits_lt hf.1)).at _) ?_
  refine ParsesAt.bind (a := s.mem') (Scene0.parsesChannels hf hr ?_) ?_
  · rcases hno with h | h
    · right
      simp [h]
      omega
    · exact .inl h
  · refine ParsesAt.bind_nil ((Scene0.parsesObjects hf s.mem'_bits s.mem'_objects).at _) ?_
    rw [Scene0.mem_eq]
    refine assertRead_ok _ ?_
    simp
    omega

/-! ## Version 0 with positions and objects -/

theorem get8_read {s s' : PS} {v : Nat} (h : get8 s = .ok (v, s')) : s'.read = s.read + 1 := by
  unfold get8 at h
  cases e : rd8 s.rest with
  | ok x => rw [e] at h; simp [Res.ok_bind, Res.pure_def] at h; rw [← h.2]
  | err _ => rw [e] at h; cases h
  | ub => rw [e] at h; cases h

theorem get16_read {s s' : PS} {v : Nat} (h : get16 s = .ok (v, s')) : s'.read = s.read + 2 := by
  unfold get16 at h
  cases e : rd16 s.rest with
  | ok x => rw [e] at h; simp [Res.ok_bind, Res.pure_def] at h; rw [← h.2]
  | err _ => rw [e] at h; cases h
  | ub => rw [e] at h; cases h

theorem bind_ok {α β : Type} {p : P α} {f : α → P β} {s s' : PS} {v : β} (h : (p >>= f) s = .ok (v, s')) :
    ∃ a t, p s = .ok (a, t) ∧ f a t = .ok (v, s') := by
  rw [P.bind_apply] at h
  cases e : p s with
  | ok x => rw [e] at h; exact ⟨x.1, x.2, rfl, h⟩
  | err _ => rw [e] at h; cases h
  | ub => rw [e] at h; cases h

theorem Speaker.get_read {room : Bool} {s s' : PS} {x : Speaker} (h : Speaker.get room s = .ok (x, s')) :
    s.read < s'.read := by
  unfold Speaker.get at h
  obtain ⟨a, t, h1, h2⟩ := bind_ok h
  have := get8_read h1
  split at h2
  · obtain ⟨b, u, h3, h4⟩ := bind_ok h2
    obtain ⟨c, w, h5, h6⟩ := bind_ok h4
    have := get16_read h3
    have := get8_read h5
    split at h6
    · rw [P.pure_apply] at h6
      cases h6
      omega
    · cases h6
  · rw [P.pure_apply] at h2
    cases h2
    omega

theorem whileLoop_read {α σ : Type} {p : P α} {add : σ → α → σ} {n size : Nat} {acc v : σ} {s s' : PS}
    (h : whileLoop p add n size acc s = .ok (v, s')) : size ≤ s'.read := by
  induction n generalizing acc s with
  | zero => cases h
  | succ n ih =>
    rw [whileLoop] at h
    simp only at h
    split at h
    · split at h
      · exact ih h
      · cases h
      · cases h
    · cases h; omega

/-- The loop over the positions reads to the end, so that the number of objects is sought after the box. -/
theorem Scene0.noObjects {s : Scene0} {ss : List Speaker} (hp : s.part = .listed ss) (hn : s.objects.isSome = true)
    {room : Bool} {size type k : Nat} (hs : s.other < 64) {vf : VF} {r : Bytes} {v : VF × Chnl} {s' : PS} :
    (do
      let structure_ ← get8
      let x ← Chnl.readChannels0 room size ⟨0, structure_, 0, [], 0, 0, 0, 0, 0, 0, 0⟩
      let x ← x.readObjects
      assertRead ⟨size, type, [], 0, 8⟩ (vf, x) : P (VF × Chnl)) ⟨s.wire ++ r, k⟩ ≠ .ok (v, s') := by
  intro h
  obtain ⟨a, t, h1, h2⟩ := bind_ok h
  have e1 : get8 ⟨s.wire ++ r, k⟩ = .ok (s.bits, ⟨s.part.wire ++ s.objects.elim [] (be 1) ++ r, k + 1⟩) := by
    have := (parses_get8' (Scene0.bits_lt hs)) (s.part.wire ++ s.objects.elim [] (be 1) ++ r) k
    rw [← List.append_assoc] at this
    exact this
  rw [e1] at h1
  cases h1
  obtain ⟨x, t, h3, h4⟩ := bind_ok h2
  obtain ⟨y, u, h5, h6⟩ := bind_ok h4
  have hc := s.channels_iff (x := ⟨0, s.bits, 0, [], 0, 0, 0, 0, 0, 0, 0⟩) rfl
  unfold Chnl.readChannels0 at h3
  rw [if_pos (by rw [hc, hp]; rfl)] at h3
  obtain ⟨d, w, g1, g2⟩ := bind_ok h3
  have e2 : get8 ⟨s.part.wire ++ s.objects.elim [] (be 1) ++ r, k + 1⟩ =
      .ok (0, ⟨placesWire ss ++ s.objects.elim [] (be 1) ++ r, k + 2⟩) := by
    rw [hp]
    have := (parses_get8' (show 0 < 256 by decide)) (placesWire ss ++ s.objects.elim [] (be 1) ++ r) (k + 1)
    simpa [Part0.wire, List.append_assoc] using this
  rw [e2] at g1
  cases g1
  rw [if_pos rfl] at g2
  obtain ⟨l, z, g3, g4⟩ := bind_ok g2
  have hz := whileLoop_read g3
  rw [P.pure_apply] at g4
  cases g4
  unfold Chnl.readObjects at h5
  rw [if_pos ((s.objects_iff rfl).2 hn)] at h5
  obtain ⟨n, w', g5, g6⟩ := bind_ok h5
  have := get8_read g5
  rw [P.pure_apply] at g6
  cases g6
  have hub := breaksAt_assertRead (h := ⟨size, type, [], 0, 8⟩) (vf, ({ (⟨0, s.bits, 0, l, 0, 0, 0, 0, 0, 0, 0⟩ : Chnl) with
    objectCount := n } : Chnl)) (k := u.read) (bs := []) (by simp only; omega) u.rest
  rw [show (⟨[] ++ u.rest, u.read⟩ : PS) = u from rfl] at hub
  rw [hub] at h6
  cases h6

/-! ## No room for the four bytes -/

theorem Speaker.breaks {x : Speaker} (h : x.Fits) (he : x.position = 126) {k : Nat} :
    BreaksAt (Speaker.get false) k x.wire := by
  unfold Speaker.get Speaker.wire
  refine BreaksAt.bind ((parses_get8' h.position).at _) ?_
  rw [if_pos he, if_pos (show x.position = explicit from he)]
  refine BreaksAt.bind ((parses_get16' h.azimuth).at _) ?_
  refine BreaksAt.bind_nil ((parses_get8' h.elevation).at _) ?_
  exact fun _ => rfl

theorem BreaksAt.more {α : Type} {p : P α} {k : Nat} {a : Bytes} (h : BreaksAt p k a) (b : Bytes) : BreaksAt p k (a ++ b) :=
  fun r => by rw [List.append_assoc]; exact h (b ++ r)

theorem repeat_breaks {ss : List Speaker} (h : ∀ x ∈ ss, x.Fits) (he : ∃ x ∈ ss, x.position = 126) {k : Nat} :
    BreaksAt (P.repeat ss.length (Speaker.get false)) k (placesWire ss) := by
  induction ss generalizing k with
  | nil => obtain ⟨x, hx, _⟩ := he; cases hx
  | cons y ss ih =>
    have hy := h y (by simp)
    simp only [List.length_cons, P.repeat, placesWire, List.flatMap_cons]
    by_cases h1 : y.position = 126
    · exact BreaksAt.more (BreaksAt.first (Speaker.breaks hy h1)) _
    · refine BreaksAt.bind ((Speaker.parses hy (.inr h1)).at _) (BreaksAt.first (ih (fun x hx => h x (by simp [hx])) ?_))
      obtain ⟨x, hx, h2⟩ := he
      rcases List.mem_cons.1 hx with rfl | hx
      · exact absurd h2 h1
      · exact ⟨x, hx, h2⟩

theorem while_breaks {ss : List Speaker} (h : ∀ x ∈ ss, x.Fits) (he : ∃ x ∈ ss, x.position = 126) {n size k : Nat}
    {acc : List Speaker} {r : Bytes} (hn : ss.length ≤ n) (hs : k + (placesWire ss).length ≤ size) :
    whileLoop (Speaker.get false) (fun l s => l ++ [s]) n size acc ⟨placesWire ss ++ r, k⟩ = .ub := by
  induction ss generalizing n k acc with
  | nil => obtain ⟨x, hx, _⟩ := he; cases hx
  | cons y ss ih =>
    have hy := h y (by simp)
    obtain ⟨m, rfl⟩ : ∃ m, n = m + 1 := ⟨n - 1, by simp at hn; omega⟩
    have h3 := List.length_pos_iff.2 y.ne_nil
    simp only [placesWire, List.flatMap_cons, List.length_append, List.length_cons] at hs hn ⊢
    rw [whileLoop]
    simp only
    rw [if_pos (by omega), List.append_assoc]
    by_cases h1 : y.position = 126
    · rw [Speaker.breaks hy h1]
    · rw [Speaker.parses hy (.inr h1)]
      refine ih (fun x hx => h x (by simp [hx])) ?_ (by omega) (by simp only [placesWire]; omega)
      obtain ⟨x, hx, h2⟩ := he
      rcases List.mem_cons.1 hx with rfl | hx
      · exact absurd h2 h1
      · exact ⟨x, hx, h2⟩

theorem Scene0.breaks {s : Scene0} (hf : s.Fits) {ss : List Speaker} (hp : s.part = .listed ss)
    (he : ∃ x ∈ ss, x.position = 126) {flags : Nat} (hfl : flags < 16777216) :
    BreaksAt (Chnl.parse false ⟨12 + s.wire.length, fcc 'c' 'h' 'n' 'l', [], 0, 8⟩) 8 (be 1 0 ++ be 3 flags ++ s.wire) := by
  unfold Chnl.parse
  refine BreaksAt.bind ((parses_versionFlags (by decide) hfl).at _) ?_
  simp only [if_true]
  have hlen : s.wire.length = 1 + (s.part.wire.length + (s.objects.elim [] (be 1)).length) := by
    simp [Scene0.wire]
  have hfs : ∀ x ∈ ss, x.Fits := by have := hf.2.1; rw [hp] at this; exact this.2
  have hc := s.channels_iff (x := ⟨0, s.bits, 0, [], 0, 0, 0, 0, 0, 0, 0⟩) rfl
  rw [show s.wire = be 1 s.bits ++ (s.part.wire ++ s.objects.elim [] (be 1)) from rfl]
  refine BreaksAt.bind ((parses_get8' (Scene0.bits_lt hf.1)).at _) (BreaksAt.more (BreaksAt.first ?_) _)
  unfold Chnl.readChannels0
  rw [if_pos (by rw [hc, hp]; rfl), hp]
  refine BreaksAt.bind ((parses_get8' (show 0 < 256 by decide)).at _) ?_
  rw [if_pos rfl]
  refine BreaksAt.first ?_
  intro r
  unfold whileBytes
  have := flatMap_ge (g := Speaker.wire) (xs := ss) fun x _ => x.ne_nil
  refine while_breaks hfs he ?_ ?_
  · simp only [List.length_append, placesWire]; omega
  · simp [Part0.wire] at hlen ⊢
    omega

/-! ## Later versions -/

theorem Part1.bit_le (p : Part1) : p.bit ≤ 1 := by cases p <;> simp [Part1.bit]

theorem Scene1.mem_bits (s : Scene1) : s.mem.structure_ = s.bits := by unfold Scene1.mem; split <;> rfl
theorem Scene1.mem_ordering (s : Scene1) : s.mem.ordering = s.ordering := by unfold Scene1.mem; split <;> rfl
theorem Scene1.mem_base (s : Scene1) : s.mem.baseChannelCount = s.base := by unfold Scene1.mem; split <;> rfl

theorem Scene1.channels_iff (s : Scene1) {x : Chnl} (h : x.structure_ = s.bits) : x.channels ↔ s.part.bit = 1 := by
  unfold Chnl.channels
  rw [h, Scene1.bits]
  have := s.part.bit_le
  omega

theorem Scene1.bits_lt {s : Scene1} (h : s.other < 8) : s.bits < 16 := by
  unfold Scene1.bits
  have := s.part.bit_le
  omega

theorem omitted_length (o : Option Nat) : (o.elim [] (be 8)).length = if o.isSome then 8 else 0 := by
  cases o <;> simp

theorem Scene1.size {s : Scene1} (hf : s.Fits) {version : Nat} (hv : version ≠ 0) :
    s.mem.size version = .ok (12 + s.wire.length) := by
  unfold Chnl.size
  rw [if_neg hv]
  simp only [Scene1.wire, List.length_append, be_length]
  have hc := s.channels_iff s.mem_bits
  have hp := hf.2.2.2
  obtain ⟨o, d, b, p⟩ := s
  cases p with
  | none =>
    rw [if_neg (by rw [hc]; simp [Part1.bit])]
    rfl
  | listed ss =>
    rw [if_pos (by rw [hc]; rfl), if_pos (show (⟨o, d, b, .listed ss⟩ : Scene1).mem.definedLayout = 0 from rfl)]
    have := places_le ss
    have := hp.1
    show (do
      let l ← entries ss ss.length
      Res.ok w32(16 + (l.map Speaker.size).sum)) = _
    rw [entries, if_pos (by omega), List.take_length, Res.ok_bind, ← places_length]
    simp only [Part1.wire, List.length_append, be_length]
    rw [Nat.mod_eq_of_lt (by omega)]
    congr 1; omega
  | known l o m =>
    rw [if_pos (by rw [hc]; rfl), if_neg (by have := hp.1; show ¬ l = 0; omega)]
    simp only [Part1.wire, List.length_append, be_length, omitted_length]
    cases m <;> rfl

theorem Scene1.wire_le {s : Scene1} (hf : s.Fits) : s.wire.length ≤ 1100 := by
  simp only [Scene1.wire, List.length_append, be_length]
  have h2 := hf.2.2.2
  cases hq : s.part with
  | none => simp only [Part1.wire, List.length_nil]; omega
  | listed ss =>
    rw [hq] at h2
    have := places_le ss
    have := h2.1
    simp only [Part1.wire, List.length_append, be_length]; omega
  | known l o m =>
    simp only [Part1.wire, List.length_append, be_length, omitted_length]
    split <;> omega

theorem Scene1.emits {s : Scene1} (hf : s.Fits) : Emits
    (put8 w8(s.mem.structure_ * 16 + s.mem.ordering) ;; put8 s.mem.baseChannelCount ;;
      if s.mem.channels then
        put8 s.mem.definedLayout ;;
        if s.mem.definedLayout = 0 then
          put8 s.mem.layoutChannelCount ;; W.each Speaker.put (s.mem.layouts.take s.mem.layoutChannelCount)
        else
          put8 w8(s.mem.orderDefinition * 2 + s.mem.omittedPresent) ;;
          if s.mem.omittedPresent ≠ 0 then put64 s.mem.omitted else W.skip
      else W.skip) s.wire := by
  unfold Scene1.wire
  rw [s.mem_bits, s.mem_ordering, s.mem_base, ← be1_mod (16 * s.bits + s.ordering), Nat.mul_comm 16]
  refine (emits_put8 _).seq ((emits_put8 _).seq ?_)
  have hc := s.channels_iff s.mem_bits
  have hp := hf.2.2.2
  obtain ⟨o, d, b, p⟩ := s
  cases p with
  | none =>
    rw [if_neg (by rw [hc]; simp [Part1.bit])]
    exact emits_skip
  | listed ss =>
    rw [if_pos (by rw [hc]; rfl), if_pos (show (⟨o, d, b, .listed ss⟩ : Scene1).mem.definedLayout = 0 from rfl)]
    refine (emits_put8 _).seq ((emits_put8 _).seq ?_)
    show Emits (W.each Speaker.put (ss.take ss.length)) _
    rw [List.take_length]
    exact Emits.each ss fun y _ => Speaker.emits y
  | known l o m =>
    rw [if_pos (by rw [hc]; rfl), if_neg (by have := hp.1; show ¬ l = 0; omega)]
    show Emits (put8 l ;; put8 ((o * 2 + if m.isSome then 1 else 0) % 256) ;;
      if (if m.isSome then 1 else 0) ≠ 0 then put64 (m.getD 0) else W.skip) (be 1 l ++
        (be 1 (2 * o + if m.isSome then 1 else 0) ++ m.elim [] (be 8)))
    rw [← be1_mod (2 * o + _), Nat.mul_comm 2]
    refine (emits_put8 _).seq ((emits_put8 _).seq ?_)
    cases m with
    | none => exact emits_skip
    | some n => exact emits_put64 _

theorem Scene1.parsesChannels {s : Scene1} (hf : s.Fits) {room : Bool} (hr : s.part.Safe room) :
    Parses (Chnl.readChannels1 room ⟨0, s.bits, 0, [], 0, 0, s.ordering, s.base, 0, 0, 0⟩) s.part.wire s.mem := by
  unfold Chnl.readChannels1
  have hc := s.channels_iff (x := ⟨0, s.bits, 0, [], 0, 0, s.ordering, s.base, 0, 0, 0⟩) rfl
  have hp := hf.2.2.2
  obtain ⟨o, d, b, p⟩ := s
  cases p with
  | none =>
    rw [if_neg (by rw [hc]; simp [Part1.bit])]
    exact parses_pure _
  | listed ss =>
    rw [if_pos (by rw [hc]; rfl)]
    refine (parses_get8' (show 0 < 256 by decide)).bind ?_
    rw [if_pos rfl]
    refine (parses_get8' hp.1).bind ?_
    refine Parses.bind_nil (a := ss) ?_ (parses_pure _)
    have := parses_repeat ss Speaker.wire (p := Speaker.get room) (fun x hx => Speaker.parses (hp.2 x hx) (hr.at hx)) rfl
    exact this
  | known l o m =>
    rw [if_pos (by rw [hc]; rfl)]
    refine (parses_get8' hp.1.2).bind ?_
    rw [if_neg (by have := hp.1; omega)]
    have ho := hp.2.1
    have hb : (if m.isSome then (1:Nat) else 0) ≤ 1 := by split <;> omega
    have hm := hp.2.2
    refine (parses_get8' (v := 2 * o + if m.isSome then 1 else 0) (by omega)).bind ?_
    simp only
    rw [show (2 * o + if m.isSome then 1 else 0) / 2 % 8 = o by omega,
      show (2 * o + if m.isSome then 1 else 0) % 2 = if m.isSome then 1 else 0 by omega]
    cases m with
    | none => exact parses_pure _
    | some n => exact (parses_get64' (hm n rfl)).map _

theorem Scene1.head_lt {s : Scene1} (hf : s.Fits) : 16 * s.bits + s.ordering < 256 := by
  have := Scene1.bits_lt hf.1
  have := hf.2.1
  omega

theorem Scene1.parses {s : Scene1} (hf : s.Fits) {room : Bool} (hr : s.part.Safe room) {version flags : Nat}
    (hv : version ≠ 0) (hv' : version < 256) (hfl : flags < 16777216) :
    ParsesAt (Chnl.parse room ⟨12 + s.wire.length, fcc 'c' 'h' 'n' 'l', [], 0, 8⟩) 8
      (be 1 version ++ be 3 flags ++ s.wire) ((version, flags), s.mem) := by
  unfold Chnl.parse
  refine ParsesAt.bind ((parses_versionFlags hv' hfl).at _) ?_
  rw [if_neg hv]
  have hlen : s.wire.length = 2 + s.part.wire.length := by simp [Scene1.wire]; omega
  have h1 := hf.2.1
  rw [show s.wire = be 1 (16 * s.bits + s.ordering) ++ (be 1 s.base ++ s.part.wire) from rfl]
  refine ParsesAt.bind ((parses_get8' (Scene1.head_lt hf)).at _) ?_
  refine ParsesAt.bind ((parses_get8' hf.2.2.1).at _) ?_
  rw [show (16 * s.bits + s.ordering) / 16 = s.bits by omega,
    show (16 * s.bits + s.ordering) % 16 = s.ordering by omega]
  refine ParsesAt.bind_nil ((Scene1.parsesChannels hf hr).at _) (assertRead_ok _ ?_)
  simp
  omega

theorem Scene1.breaks {s : Scene1} (hf : s.Fits) {ss : List Speaker} (hp : s.part = .listed ss)
    (he : ∃ x ∈ ss, x.position = 126) {version flags : Nat} (hv : version ≠ 0) (hv' : version < 256)
    (hfl : flags < 16777216) :
    BreaksAt (Chnl.parse false ⟨12 + s.wire.length, fcc 'c' 'h' 'n' 'l', [], 0, 8⟩) 8
      (be 1 version ++ be 3 flags ++ s.wire) := by
  unfold Chnl.parse
  refine BreaksAt.bind ((parses_versionFlags hv' hfl).at _) ?_
  rw [if_neg hv]
  have h1 := hf.2.1
  have h2 := hf.2.2.2
  rw [hp] at h2
  rw [show s.wire = be 1 (16 * s.bits + s.ordering) ++ (be 1 s.base ++ s.part.wire) from rfl]
  refine BreaksAt.bind ((parses_get8' (Scene1.head_lt hf)).at _) ?_
  refine BreaksAt.bind ((parses_get8' hf.2.2.1).at _) (BreaksAt.first ?_)
  rw [show (16 * s.bits + s.ordering) / 16 = s.bits by omega]
  unfold Chnl.readChannels1
  rw [if_pos ((s.channels_iff rfl).2 (by rw [hp]; rfl)), hp]
  refine BreaksAt.bind ((parses_get8' (show 0 < 256 by decide)).at _) ?_
  rw [if_pos rfl]
  refine BreaksAt.bind ((parses_get8' h2.1).at _) (BreaksAt.first (repeat_breaks h2.2 he))

/-- Bytes after the last field. -/
theorem Scene1.extra {s : Scene1} (hf : s.Fits) {room : Bool} (hr : s.part.Safe room) {version flags : Nat}
    (hv : version ≠ 0) (hv' : version < 256) (hfl : flags < 16777216) {x : Bytes} (hx : x ≠ []) :
    BreaksAt (Chnl.parse room ⟨12 + (s.wire ++ x).length, fcc 'c' 'h' 'n' 'l', [], 0, 8⟩) 8
      (be 1 version ++ be 3 flags ++ (s.wire ++ x)) := by
  unfold Chnl.parse
  refine BreaksAt.bind ((parses_versionFlags hv' hfl).at _) ?_
  rw [if_neg hv]
  have hlen : s.wire.length = 2 + s.part.wire.length := by simp [Scene1.wire]; omega
  have h1 := hf.2.1
  have h0 := List.length_pos_iff.2 hx
  rw [show s.wire = be 1 (16 * s.bits + s.ordering) ++ (be 1 s.base ++ s.part.wire) from rfl]
  simp only [List.append_assoc]
  refine BreaksAt.bind ((parses_get8' (Scene1.head_lt hf)).at _) ?_
  refine BreaksAt.bind ((parses_get8' hf.2.2.1).at _) ?_
  rw [show (16 * s.bits + s.ordering) / 16 = s.bits by omega,
    show (16 * s.bits + s.ordering) % 16 = s.ordering by omega]
  refine BreaksAt.bind ((Scene1.parsesChannels hf hr).at _) (breaksAt_assertRead _ ?_)
  simp
  omega

/-! ## Downmix instructions -/

theorem emits_nibbles (l : List Nat) (t : Nat) : Emits (nibbles false t l) (pack l) := by
  match l with
  | [] => exact emits_skip
  | [a] =>
    show Emits (put8 ((a * 16 % 256 + 15) % 256)) (be 1 (16 * a + 15))
    rw [← be1_mod (16 * a + 15), show (16 * a + 15) % 256 = (a * 16 % 256 + 15) % 256 by omega]
    exact emits_put8 _
  | a :: b :: l =>
    show Emits (put8 ((a * 16 % 256 + b) % 256) ;; nibbles false ((a * 16 % 256 + b) % 256) l) (be 1 (16 * a + b) ++ pack l)
    rw [← be1_mod (16 * a + b), show (16 * a + b) % 256 = (a * 16 % 256 + b) % 256 by omega]
    exact (emits_put8 _).seq (emits_nibbles l _)

theorem pack_length (l : List Nat) : (pack l).length = l.length / 2 + l.length % 2 := by
  match l with
  | [] => rfl
  | [a] => simp [pack]
  | a :: b :: l =>
    simp only [pack, List.length_append, be_length, List.length_cons]
    rw [pack_length l]
    omega

theorem halves_cons (b : UInt8) (l : Bytes) : halves (b :: l) = b.toNat / 16 :: b.toNat % 16 :: halves l := by
  simp [halves]

theorem halves_append (a b : Bytes) : halves (a ++ b) = halves a ++ halves b := by simp [halves]

theorem halves_length (l : Bytes) : (halves l).length = 2 * l.length := by
  induction l with
  | nil => rfl
  | cons b l ih => rw [halves_cons]; simp only [List.length_cons, ih]; omega

theorem halves_pack (l : List Nat) (h : ∀ a ∈ l, a < 16) : halves (pack l) = padded l := by
  match l with
  | [] => rfl
  | [a] =>
    have := h a (by simp)
    rw [pack, be1, halves_cons, ofNat_toNat_mod, show (16 * a + 15) % 256 / 16 = a by omega,
      show (16 * a + 15) % 256 % 16 = 15 by omega]
    rfl
  | a :: b :: l =>
    have h1 := h a (by simp)
    have h2 := h b (by simp)
    have ih := halves_pack l fun x hx => h x (by simp [hx])
    rw [pack, be1, List.singleton_append, halves_cons, ofNat_toNat_mod, show (16 * a + b) % 256 / 16 = a by omega,
      show (16 * a + b) % 256 % 16 = b by omega, ih]
    unfold padded
    by_cases h3 : l.length % 2 = 1
    · rw [if_pos h3, if_pos (by simp only [List.length_cons]; omega)]
      rfl
    · rw [if_neg h3, if_neg (by simp only [List.length_cons]; omega)]

theorem lastBlock_short {l : List Nat} (h : l.length ≤ 65536) : lastBlock l = l := by
  unfold lastBlock
  rw [show (l.length - 1) / 65536 = 0 by omega]
  rfl

theorem lastBlock_add (l : List Nat) (h : l.length % 2 = 0) (a b : Nat) :
    lastBlock (l ++ [a, b]) = (if (lastBlock l).length = 65536 then [] else lastBlock l) ++ [a, b] := by
  unfold lastBlock
  simp only [List.length_append, List.length_cons, List.length_nil, List.length_drop]
  split
  · rename_i h1
    rw [List.drop_append_of_le_length (by omega), List.drop_eq_nil_of_le (by omega)]
  · rename_i h1
    have : (l.length + (0 + 1 + 1) - 1) / 65536 = (l.length - 1) / 65536 := by omega
    rw [this, List.drop_append_of_le_length (by omega)]

theorem addBytes_eq (l : Bytes) : (l.map (·.toNat)).foldl addByte [] = lastBlock (halves l) := by
  suffices h : ∀ (l : Bytes) (acc : Bytes), (l.map (·.toNat)).foldl addByte (lastBlock (halves acc)) =
      lastBlock (halves (acc ++ l)) by
    have := h l []
    rw [show lastBlock (halves []) = [] from rfl] at this
    simpa using this
  intro l
  induction l with
  | nil => simp
  | cons b l ih =>
    intro acc
    have h1 : addByte (lastBlock (halves acc)) b.toNat = lastBlock (halves (acc ++ [b])) := by
      rw [halves_append, show halves [b] = [b.toNat / 16, b.toNat % 16] from rfl,
        lastBlock_add _ (by rw [halves_length]; omega)]
      rfl
    simp only [List.map_cons, List.foldl_cons]
    rw [h1, ih]
    simp

theorem parses_byte (b : UInt8) : Parses get8 [b] b.toNat := by
  have := parses_get8 b.toNat
  have hb := b.toNat_lt
  rw [be1, Nat.mod_eq_of_lt (by simpa using hb)] at this
  simpa using this

theorem bytes_while {l : Bytes} {size k : Nat} (hs : size = k + l.length) :
    ParsesAt (whileBytes get8 addByte [] size) k l (lastBlock (halves l)) := by
  have e : l.flatMap (fun b => [b]) = l := by induction l <;> simp_all
  have := parsesAt_while (p := get8) (add := addByte) (acc := ([] : List Nat)) (fun b : UInt8 => [b]) (·.toNat) (xs := l)
    (fun x _ => ⟨parses_byte x, by simp⟩) (size := size) (k := k) (by rw [e]; exact hs)
  rw [e, addBytes_eq] at this
  exact this

theorem Dmix.head_length (x : Dmix) : x.head.length = 3 := by simp [Dmix.head]

theorem Dmix.parses {x : Dmix} (h : x.Fits) {v f : Nat} (hv : v < 256) (hf : f < 16777216) (tail : Bytes) :
    ParsesAt (Dmix.parse ⟨12 + (x.head ++ tail).length, fcc 'd' 'm' 'i' 'x', [], 0, 8⟩) 8
      (be 1 v ++ be 3 f ++ (x.head ++ tail))
      ((v, f), ⟨0, x.layout, x.reserved, x.targetChannelCount, x.inStream, x.id, lastBlock (halves tail)⟩) := by
  unfold Dmix.parse
  refine ParsesAt.bind ((parses_versionFlags hv hf).at _) ?_
  have h1 := h.reserved
  have h2 := h.target
  have h3 := h.inStream
  have h4 := h.id
  have hl := x.head_length
  rw [show x.head ++ tail = be 1 x.layout ++ (be 1 (128 * x.reserved + x.targetChannelCount) ++
    (be 1 (128 * x.inStream + x.id) ++ tail)) by simp [Dmix.head]]
  refine ParsesAt.bind ((parses_get8' h.layout).at _) ?_
  refine ParsesAt.bind ((parses_get8' (by omega)).at _) ?_
  refine ParsesAt.bind ((parses_get8' (by omega)).at _) ?_
  refine ParsesAt.bind_nil (bytes_while ?_) ?_
  · simp only [List.length_append, be_length]; omega
  · rw [show (128 * x.reserved + x.targetChannelCount) / 128 = x.reserved by omega,
      show (128 * x.reserved + x.targetChannelCount) % 128 = x.targetChannelCount by omega,
      show (128 * x.inStream + x.id) / 128 = x.inStream by omega,
      show (128 * x.inStream + x.id) % 128 = x.id by omega]
    refine assertRead_ok _ ?_
    simp only [List.length_append, be_length]; omega

theorem emits_head (x : Dmix) {b : W} {y : Bytes} (hb : EmitsFull b y) :
    EmitsFull (put8 x.layout ;; put8 w8(x.reserved * 128 + x.targetChannelCount) ;; put8 w8(x.inStream * 128 + x.id) ;; b)
      (x.head ++ y) := by
  have e1 : be 1 (128 * x.reserved + x.targetChannelCount) = be 1 w8(x.reserved * 128 + x.targetChannelCount) := by
    rw [be1_mod, Nat.mul_comm]
  have e2 : be 1 (128 * x.inStream + x.id) = be 1 w8(x.inStream * 128 + x.id) := by
    rw [be1_mod, Nat.mul_comm]
  unfold Dmix.head
  rw [e1, e2]
  simp only [List.append_assoc]
  exact (emits_put8 _).then ((emits_put8 _).then ((emits_put8 _).then hb))

/-- The coefficients of `n` that are on the wire. -/
theorem Dmix.writes (x : Dmix) (v f : Nat) {n : Nat} (hn : x.baseChannelCount * x.targetChannelCount = n)
    (hi : x.inStream = 0) (hl : n ≤ x.coefficients.length) (hs : n < 8589934000) :
    x.size = 12 + (x.head ++ pack (x.coefficients.take n)).length ∧
    runW x.size (x.serialize v f) = .ok (fullBox (fcc 'd' 'm' 'i' 'x') v f (x.head ++ pack (x.coefficients.take n))) := by
  have hlen : (x.head ++ pack (x.coefficients.take n)).length = 3 + (n / 2 + n % 2) := by
    rw [List.length_append, Dmix.head_length, pack_length, List.length_take, Nat.min_eq_left hl]
  have hsz : x.size = 12 + (x.head ++ pack (x.coefficients.take n)).length := by
    unfold Dmix.size
    rw [if_pos hi, hn, hlen, Nat.mod_eq_of_lt (by omega)]
    omega
  refine ⟨hsz, ?_⟩
  have hw : EmitsFull (x.serialize v f) (((be 4 x.size ++ be 4 typeDmix) ++ (be 1 v ++ be 3 f)) ++
      (x.head ++ pack (x.coefficients.take n))) := by
    unfold Dmix.serialize
    rw [hn, if_pos hi, if_pos hl]
    exact (emits_serFull _ _ _ _).then (emits_head x (emits_nibbles _ _).thenAssert)
  rw [hw.runW (by simp only [List.length_append, be_length] at hsz ⊢; omega) (by omega), Str.fullBox_eq, hsz]
  simp only [List.append_assoc]
  rfl

theorem Dmix.writesIn (x : Dmix) (v f : Nat) (hi : x.inStream ≠ 0) :
    runW x.size (x.serialize v f) = .ok (fullBox (fcc 'd' 'm' 'i' 'x') v f x.head) := by
  have hl := x.head_length
  have hsz : x.size = 15 := by unfold Dmix.size; rw [if_neg hi]
  have hw : EmitsFull (x.serialize v f) (((be 4 x.size ++ be 4 typeDmix) ++ (be 1 v ++ be 3 f)) ++ x.head) := by
    unfold Dmix.serialize
    rw [if_neg hi]
    have := (emits_serFull x.size typeDmix v f).then (emits_head x (emits_skip.thenAssert))
    rwa [List.append_nil] at this
  rw [hw.runW (by simp only [List.length_append, be_length]; omega) (by omega), Str.fullBox_eq, hsz, hl]
  simp only [List.append_assoc]
  rfl

/-! ## Loudness -/

theorem two12_eq (v : Int) : two12 v = bits16 v % 4096 := by unfold two12 bits16; omega

theorem Measurement.emits (m : Measurement) : Emits m.put m.wire := by
  unfold Measurement.put Measurement.wire
  rw [← be1_mod (16 * m.system + _), Nat.mul_comm 16]
  exact (emits_put8 _).seq ((emits_put8 _).seq (emits_put8 _))

theorem Measurement.parses {m : Measurement} (h : m.Fits) : Parses (Measurement.get true) m.wire m := by
  unfold Measurement.get Measurement.wire
  have h1 := h.system
  have h2 := h.reliability
  refine (parses_get8' h.method).bind ((parses_get8' h.value).bind ?_)
  rw [if_pos rfl]
  refine (parses_get8' (by omega)).bind_nil ?_
  rw [show (16 * m.system + m.reliability) / 16 = m.system by omega,
    show (16 * m.system + m.reliability) % 16 = m.reliability by omega]
  exact parses_pure _

theorem be_two (v : Nat) : be 2 v = be 1 (v / 256) ++ be 1 v := by simp [be]
theorem be_three (v : Nat) : be 3 v = be 1 (v / 65536) ++ (be 1 (v / 256) ++ be 1 v) := by simp [be]

theorem Lou.wire_length (x : Lou) : x.wire.length = 7 + 3 * x.measurements.length := by
  unfold Lou.wire
  simp only [List.length_append, be_length]
  rw [flatMap_length_const (c := 3) _ fun m _ => by simp [Measurement.wire]]
  omega

theorem Lou.emits {x : Lou} (h : x.Fits) : Emits
    (put8 w8(x.reserved * 32 + x.downmix / 4) ;;
    put8 w8(x.downmix * 64 + x.drcSet) ;;
    put8 (bits16 x.samplePeak / 16 % 256) ;;
    put8 w8(bits16 x.samplePeak % 16 * 16 + bits16 x.truePeak / 256 % 16) ;;
    put8 (bits16 x.truePeak % 256) ;;
    put8 w8(x.systemTP * 16 + x.reliabilityTP) ;;
    put8 x.count ;;
    (if x.count ≤ x.measurements.length then W.each Measurement.put (x.measurements.take x.count) else W.bad)) x.wire := by
  unfold Lou.wire
  rw [be_two, be_three, two12_eq, two12_eq]
  simp only [List.append_assoc]
  have h1 := h.drcSet
  have hd := h.downmix
  rw [if_pos (by rw [h.count.1]; omega), h.count.1, List.take_length]
  rw [← be1_mod ((8192 * x.reserved + 64 * x.downmix + x.drcSet) / 256),
    ← be1_mod (8192 * x.reserved + 64 * x.downmix + x.drcSet),
    ← be1_mod ((4096 * (bits16 x.samplePeak % 4096) + bits16 x.truePeak % 4096) / 65536),
    ← be1_mod ((4096 * (bits16 x.samplePeak % 4096) + bits16 x.truePeak % 4096) / 256),
    ← be1_mod (4096 * (bits16 x.samplePeak % 4096) + bits16 x.truePeak % 4096),
    ← be1_mod (16 * x.systemTP + x.reliabilityTP)]
  generalize bits16 x.samplePeak = a
  generalize bits16 x.truePeak = b
  rw [show (8192 * x.reserved + 64 * x.downmix + x.drcSet) / 256 % 256 = (x.reserved * 32 + x.downmix / 4) % 256 by omega,
    show (8192 * x.reserved + 64 * x.downmix + x.drcSet) % 256 = (x.downmix * 64 + x.drcSet) % 256 by omega,
    show (4096 * (a % 4096) + b % 4096) / 65536 % 256 = a / 16 % 256 by omega,
    show (4096 * (a % 4096) + b % 4096) / 256 % 256 = (a % 16 * 16 + b / 256 % 16) % 256 by omega,
    show (4096 * (a % 4096) + b % 4096) % 256 = b % 256 by omega,
    show (16 * x.systemTP + x.reliabilityTP) % 256 = (x.systemTP * 16 + x.reliabilityTP) % 256 by omega]
  exact (emits_put8 _).seq ((emits_put8 _).seq ((emits_put8 _).seq ((emits_put8 _).seq ((emits_put8 _).seq
    ((emits_put8 _).seq ((emits_put8 _).seq (Emits.each _ fun m _ => m.emits)))))))

theorem sign12 (v : Int) : toS16 (toS16 (two12 v : Int) * 16) / 16 = wrap12 v := by
  unfold two12 wrap12
  have e1 : toS16 ((v % 4096).toNat : Int) = v % 4096 := by unfold toS16; split <;> omega
  rw [e1]
  unfold toS16
  split <;> omega

theorem toS16_small {v : Nat} (h : v < 32768) : toS16 (v : Int) = v := by unfold toS16; split <;> omega

theorem mid12 (a : Nat) {b : Nat} (h : b < 4096) : (4096 * a + b) / 256 % 256 % 16 = b / 256 := by
  rw [show 4096 * a + b = b + 256 * (16 * a) by omega, Nat.add_mul_div_left _ _ (by decide)]
  omega

theorem low12 (a b : Nat) : (4096 * a + b) % 256 = b % 256 := by
  rw [show 4096 * a + b = b + 256 * (16 * a) by omega, Nat.add_mul_mod_self_left]

theorem Lou.parses_get {x : Lou} (h : x.Fits) {room : Bool} (hr : x.Safe room) :
    Parses (Lou.get room) x.wire x.wrapped := by
  unfold Lou.get Lou.wire
  rw [be_two, be_three]
  simp only [List.append_assoc]
  have h1 := h.reserved
  have h2 := h.downmix
  have h3 := h.drcSet
  have h4 := h.systemTP
  have h5 := h.reliabilityTP
  have ha : two12 x.samplePeak < 4096 := by unfold two12; omega
  have hb : two12 x.truePeak < 4096 := by unfold two12; omega
  have hl : Parses (P.repeat x.measurements.length (Measurement.get room)) (x.measurements.flatMap Measurement.wire)
      x.measurements := by
    rcases hr with rfl | hr
    · exact parses_repeat x.measurements Measurement.wire (fun m hm => Measurement.parses (h.measurements m hm)) rfl
    · rw [hr]; exact parses_pure _
  have hc := h.count
  refine (parses_get8 _).bind ((parses_get8 _).bind ((parses_get8 _).bind ((parses_get8 _).bind ((parses_get8 _).bind
    ((parses_get8 _).bind ((parses_get8' (by omega)).bind (hl.bind_nil ?_)))))))
  have e1 := sign12 x.samplePeak
  have e2 := sign12 x.truePeak
  generalize two12 x.samplePeak = a at *
  generalize two12 x.truePeak = b at *
  have g1 : (toS16 (((4096 * a + b) / 65536 % 256 : Nat) : Int) * 16 + (((4096 * a + b) / 256 % 256 : Nat) : Int) / 16) =
      (a : Int) := by
    rw [toS16_small (by omega)]
    omega
  have g2 : (toS16 ((((4096 * a + b) / 256 % 256 : Nat) : Int) % 16) * 256 + ((4096 * a + b) % 256 : Nat)) = (b : Int) := by
    rw [show (((4096 * a + b) / 256 % 256 : Nat) : Int) % 16 = (((4096 * a + b) / 256 % 256 % 16 : Nat) : Int) by omega,
      toS16_small (by omega)]
    rw [mid12 a hb, low12]
    omega
  rw [g1, g2, e1, e2, show (8192 * x.reserved + 64 * x.downmix + x.drcSet) / 256 % 256 / 32 = x.reserved by omega,
    show ((8192 * x.reserved + 64 * x.downmix + x.drcSet) / 256 % 256 % 32 * 4 +
      (8192 * x.reserved + 64 * x.downmix + x.drcSet) % 256 / 64) % 256 = x.downmix by omega,
    show (8192 * x.reserved + 64 * x.downmix + x.drcSet) % 256 % 64 = x.drcSet by omega,
    show (16 * x.systemTP + x.reliabilityTP) % 256 / 16 = x.systemTP by omega,
    show (16 * x.systemTP + x.reliabilityTP) % 256 % 16 = x.reliabilityTP by omega, ← hc.1]
  exact parses_pure _

theorem Lou.size_eq {x : Lou} (h : x.Fits) : x.size = 12 + x.wire.length := by
  have := h.count
  unfold Lou.size
  rw [Lou.wire_length, Nat.mod_eq_of_lt (by omega)]
  omega

theorem seq_assoc (a b c : W) : ((a ;; b) ;; c) = (a ;; (b ;; c)) := by
  funext s
  unfold W.seq
  cases a s <;> rfl

theorem Lou.trip {x : Lou} (h : x.Fits) {room : Bool} (hr : x.Safe room) {type v f : Nat} (hv : v < 256)
    (hf : f < 16777216) (ht : type < 4294967296) (hu : type ≠ typeUuid) :
    BoxRoundTrip x.size (x.serialize type v f) (Lou.parse room) ((v, f), x.wrapped) (fullBox type v f x.wire) := by
  have hc := h.count
  have hl := x.wire_length
  unfold Lou.serialize
  refine BoxRoundTrip.ofFull ?_ ?_ (Lou.size_eq h) (by rw [Lou.size_eq h]; omega) ht hu
  · have := (Lou.emits h).thenAssert
    intro s h1 h2
    have := this s h1 h2
    simpa only [seq_assoc] using this
  · unfold Lou.parse
    refine ParsesAt.bind ((parses_versionFlags hv hf).at _) ?_
    refine ParsesAt.bind_nil ((Lou.parses_get h hr).at _) (assertRead_ok _ ?_)
    rw [Lou.size_eq h]
    simp only [List.length_append, be_length]

theorem Lou.extra {x : Lou} (h : x.Fits) {room : Bool} (hr : x.Safe room) {type v f : Nat} (hv : v < 256)
    (hf : f < 16777216) {y : Bytes} (hy : y ≠ []) :
    BreaksAt (Lou.parse room ⟨12 + (x.wire ++ y).length, type, [], 0, 8⟩) 8 (be 1 v ++ be 3 f ++ (x.wire ++ y)) := by
  have h0 := List.length_pos_iff.2 hy
  unfold Lou.parse
  refine BreaksAt.bind ((parses_versionFlags hv hf).at _) ?_
  refine BreaksAt.bind ((Lou.parses_get h hr).at _) (breaksAt_assertRead _ ?_)
  simp only [List.length_append, be_length]
  omega

theorem Lou.breaks {x : Lou} (h : x.Fits) (hm : x.measurements ≠ []) {n : Nat} : BreaksAt (Lou.get false) n x.wire := by
  unfold Lou.get Lou.wire
  rw [be_two, be_three]
  simp only [List.append_assoc]
  have hc := h.count
  refine .bind ((parses_get8 _).at _) (.bind ((parses_get8 _).at _) (.bind ((parses_get8 _).at _)
    (.bind ((parses_get8 _).at _) (.bind ((parses_get8 _).at _) (.bind ((parses_get8 _).at _)
    (.bind ((parses_get8' (by omega)).at _) (.first ?_)))))))
  have hh := h.measurements
  cases e : x.measurements with
  | nil => exact absurd e hm
  | cons m l =>
    rw [e] at hh
    have hm := hh m (by simp)
    rw [List.length_cons, P.repeat, List.flatMap_cons]
    refine BreaksAt.more (.first ?_) _
    unfold Measurement.get Measurement.wire
    refine .bind ((parses_get8' hm.method).at _) (.bind ((parses_get8' hm.value).at _) ?_)
    exact fun _ => rfl

theorem wrap12_id {v : Int} (h : InRange v) : wrap12 v = v := by
  obtain ⟨h1, h2⟩ := h
  unfold wrap12; omega

theorem Lou.wrapped_id {x : Lou} (h : x.Levels) : x.wrapped = x := by
  unfold Lou.wrapped
  rw [wrap12_id h.1, wrap12_id h.2]

/-! ## The loudness box -/

variable {α : Type}

open Verif.Prot (Writes WritesAll reads_ofTrip reads_into listSize_writes emits_writes)

theorem good_tlou : GoodType (fcc 't' 'l' 'o' 'u') := by unfold GoodType; decide
theorem good_alou : GoodType (fcc 'a' 'l' 'o' 'u') := by unfold GoodType; decide
theorem good_ludt : GoodType (fcc 'l' 'u' 'd' 't') := by unfold GoodType; decide

/-- The item as a box. -/
def Item.kid : Item α → Kid (Lx α)
  | .track v f x => ⟨fcc 't' 'l' 'o' 'u', .track (v, f) x, fullBox (fcc 't' 'l' 'o' 'u') v f x.wire⟩
  | .album v f x => ⟨fcc 'a' 'l' 'o' 'u', .album (v, f) x, fullBox (fcc 'a' 'l' 'o' 'u') v f x.wire⟩
  | .other k => ⟨k.type, .other k.val, k.bytes⟩

theorem Sound.trip {room : Bool} {v f : Nat} {x : Lou} (h : Sound room v f x) {type : Nat} (ht : GoodType type) :
    BoxRoundTrip x.size (x.serialize type v f) (Lou.parse room) ((v, f), x) (fullBox type v f x.wire) := by
  obtain ⟨h1, h2, h3, h4, h5⟩ := h
  have := Lou.trip h3 h5 h1 h2 ht.2.1 ht.uuid
  rwa [Lou.wrapped_id h4] at this

theorem Sound.short {room : Bool} {v f : Nat} {x : Lou} (h : Sound room v f x) :
    8 + (be 1 v ++ be 3 f ++ x.wire).length < 4294967296 := by
  have := h.2.2.1.count
  simp only [List.length_append, be_length]
  rw [Lou.wire_length]
  omega

theorem Item.reads {room : Bool} {C : Class α} {i : Item α} (h : i.Good room C) :
    Reads (loudness room C) i.kid.type i.kid.val i.kid.bytes := by
  cases i with
  | track v f x =>
    exact reads_ofTrip (C := loudness room C) (f := fun v : VF × Lou => Lx.track v.1 v.2) (Sound.trip h good_tlou) (Sound.short h) good_tlou
      fun hd e => if_pos e
  | album v f x =>
    refine reads_ofTrip (C := loudness room C) (f := fun v : VF × Lou => Lx.album v.1 v.2) (Sound.trip h good_alou) (Sound.short h) good_alou
      fun hd e => ?_
    show (if hd.type = typeTlou then _ else if hd.type = typeAlou then _ else _) = _
    rw [if_neg (by rw [e]; decide)]
    exact if_pos e
  | other k =>
    obtain ⟨h1, h2, h3⟩ := h
    refine reads_into Lx.other h1 fun hd e => ?_
    show (if hd.type = typeTlou then _ else if hd.type = typeAlou then _ else _) = _
    rw [if_neg (by rw [e]; exact h2), if_neg (by rw [e]; exact h3)]

theorem items_readable {room : Bool} {C : Class α} {is : List (Item α)} (h : ∀ i ∈ is, i.Good room C) :
    Readable (loudness room C) (is.map Item.kid) := by
  intro k hk
  obtain ⟨i, hi, rfl⟩ := List.mem_map.1 hk
  exact Item.reads (h i hi)

theorem Item.kid_bytes (i : Item α) : i.kid.bytes = i.wire := by cases i <;> rfl

theorem items_wire (is : List (Item α)) : Ent.wire (is.map Item.kid) = itemsWire is := by
  unfold Ent.wire itemsWire
  rw [List.flatMap_map]
  simp only [Item.kid_bytes]

theorem items_adds (is : List (Item α)) (acc : Ludt) :
    adds Ludt.add acc (is.map Item.kid) = .ok ⟨acc.tracks ++ tracks is, acc.albums ++ albums is⟩ := by
  induction is generalizing acc with
  | nil => simp [adds, tracks, albums]
  | cons i is ih =>
    cases i with
    | track v f x =>
      simp only [List.map_cons, Item.kid, adds]
      rw [if_neg (by decide)]
      simp only [Ludt.add, Res.bind]
      rw [ih]
      simp [tracks, albums]
    | album v f x =>
      simp only [List.map_cons, Item.kid, adds]
      rw [if_neg (by decide)]
      simp only [Ludt.add, Res.bind]
      rw [ih]
      simp [tracks, albums]
    | other k =>
      simp only [List.map_cons, Item.kid, adds]
      split
      · simp only [Res.bind]
        rw [ih]; simp [tracks, albums]
      · simp only [Ludt.add, Res.bind]
        rw [ih]; simp [tracks, albums]

theorem ludt_reads {room : Bool} {C : Class α} {is : List (Item α)} (h : ∀ i ∈ is, i.Good room C)
    (hl : 8 + (itemsWire is).length < 4294967296) :
    Reads (ludt room C) (fcc 'l' 'u' 'd' 't') ⟨tracks is, albums is⟩ (box (fcc 'l' 'u' 'd' 't') (itemsWire is)) := by
  refine Ent.reads_of ?_ hl good_ludt
  have hr := items_readable h
  have ha := items_adds is ⟨[], []⟩
  simp only [List.nil_append] at ha
  have hw := items_wire is
  refine ParsesAt.bind_nil (a := ⟨tracks is, albums is⟩) ?_ (assertRead_ok _ rfl)
  intro r
  unfold Ent.addList
  rw [← hw] at hl ⊢
  have := Ent.readable_length hr
  rw [Ent.addLoop_kids hr (by simp only [List.length_append]; omega) rfl hl ha]

/-- The boxes that are written. -/
def Ludt.items (α : Type) (x : Ludt) : List (Item α) :=
  x.tracks.map (fun y => Item.track y.1.1 y.1.2 y.2) ++ x.albums.map (fun y => Item.album y.1.1 y.1.2 y.2)

theorem Ludt.items_wire (x : Ludt) : itemsWire (x.items α) = x.wire := by
  simp only [Ludt.items, itemsWire, List.flatMap_append, List.flatMap_map, Ludt.wire, infoWire, Item.wire]

theorem Ludt.items_good {room : Bool} {x : Ludt} (h : x.Good room) (C : Class α) : ∀ i ∈ x.items α, i.Good room C := by
  intro i hi
  rcases List.mem_append.1 hi with hi | hi
  · obtain ⟨y, hy, rfl⟩ := List.mem_map.1 hi
    exact h.1 y hy
  · obtain ⟨y, hy, rfl⟩ := List.mem_map.1 hi
    exact h.2 y hy

theorem tracks_append (a b : List (Item α)) : tracks (a ++ b) = tracks a ++ tracks b := by
  induction a with
  | nil => rfl
  | cons i a ih => cases i <;> simp [tracks, ih]

theorem albums_append (a b : List (Item α)) : albums (a ++ b) = albums a ++ albums b := by
  induction a with
  | nil => rfl
  | cons i a ih => cases i <;> simp [albums, ih]

theorem items_back (x : Ludt) : (⟨tracks (x.items α), albums (x.items α)⟩ : Ludt) = x := by
  have t1 : ∀ l : List (VF × Lou), tracks (l.map (fun y => Item.track (α := α) y.1.1 y.1.2 y.2)) = l := by
    intro l; induction l <;> simp_all [tracks]
  have t2 : ∀ l : List (VF × Lou), tracks (l.map (fun y => Item.album (α := α) y.1.1 y.1.2 y.2)) = [] := by
    intro l; induction l <;> simp_all [tracks]
  have a1 : ∀ l : List (VF × Lou), albums (l.map (fun y => Item.album (α := α) y.1.1 y.1.2 y.2)) = l := by
    intro l; induction l <;> simp_all [albums]
  have a2 : ∀ l : List (VF × Lou), albums (l.map (fun y => Item.track (α := α) y.1.1 y.1.2 y.2)) = [] := by
    intro l; induction l <;> simp_all [albums]
  simp [Ludt.items, tracks_append, albums_append, t1, t2, a1, a2]

theorem Ludt.kids_vals (x : Ludt) : Ent.vals ((x.items α).map Item.kid) = x.boxes := by
  simp only [Ludt.items, Ent.vals, Ludt.boxes, List.map_append, List.map_map]
  rfl

theorem Ludt.kids_write {room : Bool} {C : Class α} {x : Ludt} (h : x.Good room) :
    WritesAll (loudness room C) ((x.items α).map Item.kid) := by
  intro k hk
  obtain ⟨i, hi, rfl⟩ := List.mem_map.1 hk
  rcases List.mem_append.1 hi with hi | hi
  · obtain ⟨y, hy, rfl⟩ := List.mem_map.1 hi
    exact .ofTrip (Sound.trip (h.1 y hy) good_tlou) rfl rfl
  · obtain ⟨y, hy, rfl⟩ := List.mem_map.1 hi
    exact .ofTrip (Sound.trip (h.2 y hy) good_alou) rfl rfl

theorem ludt_writes {room : Bool} {C : Class α} {x : Ludt} (h : x.Good room)
    (hl : 8 + x.wire.length < 4294967296) : Writes (ludt room C) x (box (fcc 'l' 'u' 'd' 't') x.wire) := by
  have hw := Ludt.kids_write (C := C) h
  have e : Ent.wire ((x.items α).map Item.kid) = x.wire := by rw [Snd.items_wire, Ludt.items_wire]
  have hz : Ent.listSize (loudness room C) 8 x.boxes = 8 + x.wire.length := by
    rw [← x.kids_vals, ← e]
    exact listSize_writes hw (by rw [e]; exact hl)
  refine Writes.of hz ?_ hl
  show EmitsFull (serBase (Ent.listSize (loudness room C) 8 x.boxes) typeLudt ;; Ent.serList (loudness room C) x.boxes ;;
    W.assertFull) _
  rw [hz]
  have := emits_writes hw
  rw [x.kids_vals, e] at this
  exact (emits_serBase _ _).then this.thenAssert

theorem ludt_data {room : Bool} {C : Class α} {x : Ludt} (h : x.Good room)
    (hl : 8 + x.wire.length < 4294967296) : ludtData room C x = .ok (x.wire.length, x.wire) := by
  have hw := Ludt.kids_write (C := C) h
  have e : Ent.wire ((x.items α).map Item.kid) = x.wire := by rw [Snd.items_wire, Ludt.items_wire]
  have hz : Ent.listSize (loudness room C) 8 x.boxes = 8 + x.wire.length := by
    rw [← x.kids_vals, ← e]
    exact listSize_writes hw (by rw [e]; exact hl)
  have hs := emits_writes hw
  rw [x.kids_vals, e] at hs
  unfold ludtData
  simp only [hz]
  rw [hs.run (by omega), if_pos (by omega), Res.ok_bind]
  rw [show (8 + x.wire.length + 4294967296 - 8) % 4294967296 = x.wire.length by omega]

theorem addLoop_step {β σ : Type} {C : Class β} {add : σ → Nat → β → Res σ} {ks : List (Kid β)} (h : Readable C ks)
    {n size k : Nat} {acc acc' : σ} {r : Bytes} (hs : k + (Ent.wire ks).length ≤ size) (hl : size < 4294967296)
    (ha : adds add acc ks = .ok acc') :
    Ent.addLoop C add (n + ks.length) size acc ⟨Ent.wire ks ++ r, k⟩ =
      Ent.addLoop C add n size acc' ⟨r, k + (Ent.wire ks).length⟩ := by
  induction ks generalizing k acc with
  | nil =>
    simp only [adds, Res.ok.injEq] at ha
    subst ha
    rfl
  | cons x ks ih =>
    obtain ⟨h1, h2⟩ := Ent.readable_cons h
    obtain ⟨h8, hr⟩ := h1
    rw [Ent.wire_cons, List.length_append] at hs
    rw [Ent.wire_cons, List.length_append, List.append_assoc, List.length_cons, ← Nat.add_assoc, Ent.addLoop]
    obtain ⟨hd, e1, e2, e3⟩ := hr (Ent.wire ks ++ r)
    simp only
    rw [if_pos (by omega), e3]
    simp only
    rw [e1, e2, Nat.mod_eq_of_lt (by omega), ← Nat.add_assoc]
    simp only [adds] at ha
    by_cases hfr : Tree.isFree x.type
    · rw [if_pos hfr] at ha ⊢
      exact ih h2 (by omega) ha
    · rw [if_neg hfr] at ha ⊢
      cases hadd : add acc x.type x.val with
      | ok a =>
        rw [hadd] at ha
        exact ih h2 (by omega) ha
      | err e => rw [hadd] at ha; cases ha
      | ub => rw [hadd] at ha; cases ha

/-- The last box reaches beyond the end. -/
theorem ludt_over {room : Bool} {C : Class α} {is : List (Item α)} (h : ∀ i ∈ is, i.Good room C) {i : Item α}
    (hi : i.Good room C) {p q : Bytes} (hpq : p ++ q = i.wire) (hp : p ≠ []) (hq : q ≠ [])
    (hl : 8 + (itemsWire is).length + i.wire.length < 4294967296) (rest : Bytes) :
    parseAtom (ludt room C).parse (box (fcc 'l' 'u' 'd' 't') (itemsWire is ++ p) ++ (q ++ rest)) = .ub := by
  have hp' := List.length_pos_iff.2 hp
  have hq' := List.length_pos_iff.2 hq
  have hpl : p.length + q.length = i.wire.length := by rw [← hpq, List.length_append]
  refine Ent.parseAtom_ub ?_ (by simp only [List.length_append]; omega) good_ludt
  have hr := items_readable h
  have ha := items_adds is ⟨[], []⟩
  simp only [List.nil_append] at ha
  have hw := items_wire is
  have hb : (itemsWire is ++ p) ++ (q ++ rest) = itemsWire is ++ (i.wire ++ rest) := by rw [← hpq]; simp
  rw [hb]
  show (Ent.addList (loudness room C) Ludt.add ⟨[], []⟩ (8 + (itemsWire is ++ p).length) >>= fun v =>
    assertRead ⟨8 + (itemsWire is ++ p).length, fcc 'l' 'u' 'd' 't', [], 0, 8⟩ v) _ = _
  rw [P.bind_apply]
  unfold Ent.addList
  rw [← hw] at hl ⊢
  have h8 := Ent.readable_length hr
  have hr1 := Item.reads hi
  rw [Item.kid_bytes] at hr1
  obtain ⟨h9, h10⟩ := hr1
  obtain ⟨m, hm⟩ : ∃ m, (Ent.wire (is.map Item.kid) ++ (i.wire ++ rest)).length + 1 = (m + 2) + (is.map Item.kid).length :=
    ⟨(Ent.wire (is.map Item.kid) ++ (i.wire ++ rest)).length - 1 - (is.map Item.kid).length, by
      simp only [List.length_append]; omega⟩
  simp only [hm]
  rw [addLoop_step hr (by simp only [List.length_append]; omega) (by simp only [List.length_append]; omega) ha, Ent.addLoop]
  obtain ⟨hd, e1, e2, e3⟩ := h10 rest
  simp only
  rw [if_pos (by simp only [List.length_append]; omega), e3]
  simp only
  rw [e2, Nat.mod_eq_of_lt (by omega)]
  have key : ∀ acc, Ent.addLoop (loudness room C) Ludt.add (m + 1) (8 + (Ent.wire (is.map Item.kid) ++ p).length) acc
      ⟨rest, 8 + (Ent.wire (is.map Item.kid)).length + i.wire.length⟩ =
      .ok (acc, ⟨rest, 8 + (Ent.wire (is.map Item.kid)).length + i.wire.length⟩) := by
    intro acc
    rw [Ent.addLoop]
    simp only
    rw [if_neg (by simp only [List.length_append]; omega)]
  have hub : ∀ acc : Ludt, assertRead ⟨8 + (Ent.wire (is.map Item.kid) ++ p).length, fcc 'l' 'u' 'd' 't', [], 0, 8⟩ acc
      ⟨rest, 8 + (Ent.wire (is.map Item.kid)).length + i.wire.length⟩ = .ub := by
    intro acc
    exact breaksAt_assertRead acc (bs := []) (by simp only [List.length_append]; omega) rest
  by_cases hfr : Tree.isFree hd.type
  · rw [if_pos hfr, key]
    exact hub _
  · rw [if_neg hfr]
    have : ∃ acc, Ludt.add ⟨tracks is, albums is⟩ hd.type i.kid.val = .ok acc := by cases i <;> exact ⟨_, rfl⟩
    obtain ⟨acc, e⟩ := this
    rw [e]
    simp only
    rw [key]
    exact hub _

end Verif.Snd
