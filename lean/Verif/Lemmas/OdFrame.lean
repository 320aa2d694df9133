import Verif.Spec.OdFrame
import Verif.Lemmas.Od
import Verif.Props.C74

/-!
# Lemmas for frames of object descriptor streams
-/

namespace Verif.Od

open Verif.Descr
open Verif.Tref (Ref addTrackID)

/-! ## Durations that are not written -/

def slNorm (c : Sl) : Sl := if c.durations then c else { c with timeScale := 0, auDuration := 0, cuDuration := 0 }

theorem slSize_norm (c : Sl) : slSize (slNorm c) = slSize c := by
  unfold slNorm
  split
  · rfl
  · rfl

theorem putSl_norm (c : Sl) : putSl (slNorm c) = putSl c := by
  unfold slNorm
  split
  · rfl
  · rename_i h
    unfold putSl
    simp only [if_neg h]
    rfl

def esNorm (e : Es) : Es := { e with sl := e.sl.map slNorm }

theorem esSize_norm (e : Es) : esSize (esNorm e) = esSize e := by
  have : sizeOpt slSize (e.sl.map slNorm) = sizeOpt slSize e.sl := by
    cases e.sl with
    | none => rfl
    | some c => exact slSize_norm c
  unfold esSize esNorm
  simp only [this]

theorem putEs_norm (e : Es) : putEs (esNorm e) = putEs e := by
  have h1 : nestedOpt slSize putSl (e.sl.map slNorm) = nestedOpt slSize putSl e.sl := by
    cases e.sl with
    | none => rfl
    | some c =>
      show nested (slSize (slNorm c)) (putSl (slNorm c)) = nested (slSize c) (putSl c)
      rw [slSize_norm, putSl_norm]
  have h2 := esSize_norm e
  unfold putEs
  rw [h2]
  unfold esNorm
  simp only [h1]

theorem sizeAll_map {α β : Type} {s : β → Nat} {t : α → Nat} {g : α → β} (h : ∀ a, s (g a) = t a) (l : List α) :
    sizeAll s (l.map g) = sizeAll t l := by
  unfold sizeAll
  rw [List.map_map]
  exact congrArg List.sum (List.map_congr_left fun a _ => h a)

theorem each_map {α β : Type} {s : β → W} {t : α → W} {g : α → β} (h : ∀ a, s (g a) = t a) (l : List α) :
    W.each s (l.map g) = W.each t l := by
  induction l with
  | nil => rfl
  | cons a l ih =>
    rw [List.map_cons]
    unfold W.each
    rw [h, ih]

theorem putAll_map {α : Type} {s : α → Nat} {p : α → W} {g : α → α} (h1 : ∀ a, s (g a) = s a) (h2 : ∀ a, p (g a) = p a)
    (l : List α) : putAll s p (l.map g) = putAll s p l := by
  unfold putAll
  exact each_map (fun a => by rw [h1, h2]) l

def odNorm (d : Od) : Od := { d with es := d.es.map esNorm }

theorem odSize_norm (d : Od) : odSize (odNorm d) = odSize d := by
  unfold odSize odNorm
  simp only [sizeAll_map esSize_norm]

theorem putOd_norm (d : Od) : putOd (odNorm d) = putOd d := by
  have := odSize_norm d
  unfold putOd
  rw [this]
  unfold odNorm
  simp only [putAll_map esSize_norm putEs_norm]

def cmdNorm : Cmd → Cmd
  | .odUpdate ods ext => .odUpdate (ods.map odNorm) ext
  | .esUpdate id es ref ext => .esUpdate id (es.map esNorm) ref ext
  | .plain d => .plain d

theorem cmdSize_norm (c : Cmd) : cmdSize (cmdNorm c) = cmdSize c := by
  cases c with
  | odUpdate ods ext =>
    simp only [cmdNorm, cmdSize, sizeAll_map odSize_norm]
  | esUpdate id es ref ext =>
    simp only [cmdNorm, cmdSize, sizeAll_map esSize_norm]
  | plain d => rfl

theorem putCmd_norm (c : Cmd) : putCmd (cmdNorm c) = putCmd c := by
  have h := cmdSize_norm c
  cases c with
  | odUpdate ods ext =>
    simp only [cmdNorm, putCmd] at h ⊢
    rw [h, putAll_map odSize_norm putOd_norm]
  | esUpdate id es ref ext =>
    simp only [cmdNorm, putCmd] at h ⊢
    rw [h, putAll_map esSize_norm putEs_norm]
  | plain d => rfl

/-! ## Each -/

theorem bind_ok {α β : Type} (a : α) (f : α → Res β) : (Res.ok a).bind f = f a := rfl

theorem eachRes_ok {α β : Type} {f : α → Res β} {g : α → β} {l : List α} (h : ∀ a ∈ l, f a = .ok (g a)) :
    eachRes f l = .ok (l.map g) := by
  induction l with
  | nil => rfl
  | cons a l ih =>
    unfold eachRes
    rw [h a (by simp), bind_ok, ih fun b hb => h b (by simp [hb]), bind_ok]
    rfl

theorem eachRes_map {α β γ : Type} (f : β → Res γ) (r : α → β) (l : List α) :
    eachRes f (l.map r) = eachRes (fun a => f (r a)) l := by
  induction l with
  | nil => rfl
  | cons a l ih =>
    rw [List.map_cons]
    unfold eachRes
    rw [ih]

/-- The results when each step numbers its streams behind those of the earlier ones. -/
def outs {α β : Type} (ids : α → List Nat) (g : Nat → α → β) : Nat → List α → List β
  | _, [] => []
  | n, a :: l => g n a :: outs ids g (n + (ids a).length) l

theorem Fresh.left {l a b : List Nat} (h : Fresh l (a ++ b)) : Fresh l a where
  nodup := (List.nodup_append.1 h.nodup).1
  unknown i hi := h.unknown i (by simp [hi])
  few := by have := h.few; rw [List.length_append] at this; omega

theorem Fresh.right {l a b : List Nat} (h : Fresh l (a ++ b)) : Fresh (l ++ a) b where
  nodup := (List.nodup_append.1 h.nodup).2.1
  unknown i hi := by
    have h1 := h.unknown i (by simp [hi])
    refine ⟨fun hm => ?_, h1.2⟩
    rcases List.mem_append.1 hm with hm | hm
    · exact h1.1 hm
    · exact (List.nodup_append.1 h.nodup).2.2 i hm i hi rfl
  few := by have := h.few; simp only [List.length_append] at this ⊢; omega

theorem each_gives {α β : Type} {ids : α → List Nat} {g : Nat → α → β} {f : α → St β} {l : List α}
    (h : ∀ a ∈ l, ∀ m : Ref, Fresh m.ids (ids a) → f a m = ({ m with ids := m.ids ++ ids a }, .ok (g m.ids.length a))) :
    ∀ m : Ref, Fresh m.ids (l.flatMap ids) →
      St.each f l m = ({ m with ids := m.ids ++ l.flatMap ids }, .ok (outs ids g m.ids.length l)) := by
  induction l with
  | nil => intro m _; simp [St.each, St.pure, outs]
  | cons a l ih =>
    intro m hf
    rw [List.flatMap_cons] at hf
    unfold St.each St.bind
    rw [h a (by simp) m hf.left]
    simp only
    have := ih (fun b hb => h b (by simp [hb])) { m with ids := m.ids ++ ids a } hf.right
    simp only [this, St.pure, outs, List.flatMap_cons, List.append_assoc, List.length_append]

/-- Looking the numbers up again. -/
theorem eachRes_outs {α β γ : Type} {ids : α → List Nat} {g : Nat → α → β} {h : β → Res γ} {k : α → γ} {l : List α}
    {all : List Nat}
    (hh : ∀ a ∈ l, ∀ pre post, all = pre ++ (ids a ++ post) → h (g pre.length a) = .ok (k a)) :
    ∀ pre post, all = pre ++ (l.flatMap ids ++ post) → eachRes h (outs ids g pre.length l) = .ok (l.map k) := by
  induction l with
  | nil => intro pre post _; rfl
  | cons a l ih =>
    intro pre post e
    rw [List.flatMap_cons, List.append_assoc] at e
    unfold outs eachRes
    rw [hh a (by simp) pre _ e, bind_ok]
    have := ih (fun b hb => hh b (by simp [hb])) (pre ++ ids a) post (by rw [e, List.append_assoc])
    rw [List.length_append] at this
    rw [this, bind_ok]
    rfl

/-! ## Adding -/

def ptrIds (p : Ptr) : List Nat := if Named p then [p.es] else []

def storedPtr (n : Nat) (p : Ptr) : Ptr := if Named p then { p with es := n + 1 } else p

theorem add_gives {m : Ref} {id : Nat} (h : Fresh m.ids [id]) : St.add id m = ({ m with ids := m.ids ++ [id] }, .ok ()) := by
  obtain ⟨h1, h2⟩ := h.unknown id (by simp)
  have hc : m.ids.contains id = false := by simpa using h1
  unfold St.add addTrackID
  rw [if_neg h2, hc, if_neg (by simp)]

theorem storePtr_gives (p : Ptr) (m : Ref) (h : Fresh m.ids (ptrIds p)) :
    storePtr p m = ({ m with ids := m.ids ++ ptrIds p }, .ok (storedPtr m.ids.length p)) := by
  unfold storePtr storedPtr
  unfold ptrIds at h ⊢
  by_cases hn : Named p
  · rw [if_pos hn] at h
    rw [if_pos hn, if_pos hn, if_pos (show p.es ≠ 0 ∧ p.es ≠ 0xFFFF from hn)]
    show St.bind (St.add p.es) _ m = _
    unfold St.bind
    rw [add_gives h]
    have hs : m.ids.length + 1 < 65536 := by have := h.few; simp only [List.length_cons, List.length_nil] at this; omega
    show ((_, Res.ok { p with es := w16((m.ids ++ [p.es]).length) }) : Ref × Res Ptr) = _
    rw [List.length_append, List.length_singleton, Nat.mod_eq_of_lt hs]
  · rw [if_neg hn, if_neg hn, if_neg (show ¬ (p.es ≠ 0 ∧ p.es ≠ 0xFFFF) from hn), List.append_nil]
    rfl

theorem storeEs_gives (e : Es) (hp : ∀ p ∈ e.ptrs, ¬ Named p) (m : Ref) (h : Fresh m.ids [e.esid]) :
    storeEs e m = ({ m with ids := m.ids ++ [e.esid] }, .ok (m.ids.length + 1)) := by
  unfold storeEs
  show St.bind (St.add e.esid) _ m = _
  unfold St.bind
  rw [add_gives h]
  simp only
  show St.bind (St.each storePtr e.ptrs) _ _ = _
  unfold St.bind
  have hz : e.ptrs.flatMap ptrIds = [] := by
    rw [List.flatMap_eq_nil_iff]
    intro p hm
    exact if_neg (hp p hm)
  have := each_gives (ids := ptrIds) (g := storedPtr) (f := storePtr) (l := e.ptrs) (fun p _ m hf => storePtr_gives p m hf)
    { m with ids := m.ids ++ [e.esid] } (by
      rw [hz]
      have hf := h.few
      exact ⟨List.nodup_nil, (by intro i hi; cases hi), by
        simp only [List.length_append, List.length_nil, List.length_cons] at hf ⊢; omega⟩)
  rw [this, hz, List.append_nil]
  simp only [St.count, List.length_append, List.length_singleton]

def storedOd (n : Nat) (d : Od) : Od :=
  { d with
    tag := 0x11
    ptr := outs ptrIds storedPtr n d.ptr
    ref := d.ref ++ outs (fun e => [e.esid]) (fun n _ => n + 1) (n + (d.ptr.flatMap ptrIds).length) d.es
    es := [] }

theorem flatMap_esid (l : List Es) : l.flatMap (fun e => [e.esid]) = l.map (·.esid) := by
  induction l with
  | nil => rfl
  | cons a l ih => rw [List.flatMap_cons, ih]; rfl

theorem odIds_eq (d : Od) : odIds d = d.ptr.flatMap ptrIds ++ d.es.flatMap (fun e => [e.esid]) := by
  rw [flatMap_esid]; rfl

theorem storeOd_gives (d : Od) (hd : ∀ e ∈ d.es, ∀ p ∈ e.ptrs, ¬ Named p) (m : Ref) (h : Fresh m.ids (odIds d)) :
    storeOd d m = ({ m with ids := m.ids ++ odIds d }, .ok (storedOd m.ids.length d)) := by
  rw [odIds_eq] at h ⊢
  unfold storeOd
  show St.bind (St.each storePtr d.ptr) _ m = _
  unfold St.bind
  rw [each_gives (fun p _ m hf => storePtr_gives p m hf) m h.left]
  simp only
  show St.bind (St.each storeEs d.es) _ _ = _
  unfold St.bind
  rw [each_gives (ids := fun e => [e.esid]) (g := fun n _ => n + 1) (fun e he m hf => storeEs_gives e (hd e he) m hf)
    { m with ids := m.ids ++ d.ptr.flatMap ptrIds } h.right]
  show ((_, _) : Ref × Res Od) = _
  rw [List.append_assoc, List.length_append]
  rfl

def storedCmd (n : Nat) : Cmd → Cmd
  | .odUpdate ods ext => .odUpdate (outs odIds storedOd n ods) ext
  | .esUpdate id es ref ext => .esUpdate id [] (ref ++ outs (fun e => [e.esid]) (fun n _ => n + 1) n es) ext
  | .plain d => .plain d

theorem storeCmd_gives (c : Cmd) (hc : Carries c) (m : Ref) (h : Fresh m.ids (cmdIds c)) :
    storeCmd c m = ({ m with ids := m.ids ++ cmdIds c }, .ok (storedCmd m.ids.length c)) := by
  cases c with
  | odUpdate ods ext =>
    unfold storeCmd
    show St.bind (St.each storeOd ods) _ m = _
    unfold St.bind
    rw [each_gives (ids := odIds) (g := storedOd) (fun d hd m hf => storeOd_gives d (hc d hd).2 m hf) m h]
    rfl
  | esUpdate id es ref ext =>
    unfold storeCmd
    show St.bind (St.each storeEs es) _ m = _
    unfold St.bind
    have h' : Fresh m.ids (es.flatMap fun e => [e.esid]) := by rw [flatMap_esid]; exact h
    rw [each_gives (ids := fun e => [e.esid]) (g := fun n _ => n + 1) (fun e he m hf => storeEs_gives e (hc.2 e he) m hf) m h']
    rw [flatMap_esid]
    rfl
  | plain d => simp only [cmdIds, List.append_nil]; rfl

/-! ## What is read of a command -/

theorem readAny_idem (a : Any) : readAny (readAny a) = readAny a := by
  cases a with
  | od d => rfl
  | iod d =>
    show Any.iod (readIod (readIod d)) = Any.iod (readIod d)
    congr 1
    unfold readIod
    by_cases h : d.url = []
    · simp only [h, if_true]
    · simp only [h, if_false]
  | item i => rfl

theorem od_ok_of {d d' : Od} (hd : OdOk d) (ht : d'.tag = 0x01 ∨ d'.tag = 0x11) (hi : d'.id = d.id) (hu : d'.url = d.url)
    (hm : ∀ i ∈ d'.items, ItemOk i) (ho : d'.oci = d.oci) (he : d'.ext = d.ext) : OdOk d' :=
  ⟨ht, by rw [hi]; exact hd.id, by rw [hu]; exact hd.url, hm, by rw [ho]; exact hd.oci, by rw [he]; exact hd.ext⟩

theorem readOd_ok {d : Od} (hd : OdOk d) : OdOk (readOd d) := od_ok_of hd (.inl rfl) rfl rfl hd.items rfl rfl

theorem readIod_ok {d : Iod} (hd : IodOk d) : IodOk (readIod d) := by
  unfold readIod
  by_cases h : d.url = []
  · rw [if_pos h]
    exact ⟨.inr rfl, hd.id, hd.inline, hd.url, hd.profiles, hd.items, hd.oci, hd.ext⟩
  · rw [if_neg h]
    refine ⟨.inr rfl, hd.id, hd.inline, hd.url, (by simp), ?_, (by intro x hx; cases hx), hd.ext⟩
    intro i hi
    simp only [Iod.items, List.map_nil, List.nil_append] at hi
    exact hd.items i (by simp [Iod.items, hi])

theorem readAny_ok {a : Any} (ha : AnyOk a) : AnyOk (readAny a) := by
  cases a with
  | od d => exact readOd_ok ha
  | iod d => exact readIod_ok ha
  | item i => exact ha

theorem readAny_length (a : Any) : (anyBytes (readAny a)).length = (anyBytes a).length := by
  cases a with
  | od d => show (odBytes _).length = (odBytes d).length; unfold odBytes; rw [descr_length (by omega), descr_length (by omega)]; rfl
  | iod d =>
    show (iodBytes _).length = (iodBytes d).length
    unfold iodBytes
    rw [descr_length (by omega), descr_length (by omega)]
    have : iodPayload (readIod d) = iodPayload d := by
      unfold readIod
      by_cases h : d.url = []
      · rw [if_pos h]; rfl
      · rw [if_neg h]
        unfold iodPayload iodHead
        simp only [h, if_false]
    rw [this]
  | item i => rfl

theorem flat_readAny (l : List Any) : ((l.map readAny).flatMap anyBytes).length = (l.flatMap anyBytes).length := by
  induction l with
  | nil => rfl
  | cons a l ih => simp only [List.map_cons, List.flatMap_cons, List.length_append, readAny_length, ih]

theorem readCmd_ok {c : Cmd} (hc : CmdOk c) : CmdOk (readCmd c) := by
  cases c with
  | odUpdate ods ext =>
    refine ⟨?_, ?_⟩
    · intro d hd
      obtain ⟨x, hx, rfl⟩ := List.mem_map.1 hd
      exact readOd_ok (hc.1 x hx)
    · intro a ha
      obtain ⟨x, hx, rfl⟩ := List.mem_map.1 ha
      exact ⟨readAny_ok (hc.2 x hx).1, readAny_od (hc.2 x hx).2⟩
  | esUpdate id es ref ext =>
    obtain ⟨h1, h2, h3, h4⟩ := hc
    refine ⟨h1, h2, h3, ?_⟩
    intro a ha
    obtain ⟨x, hx, rfl⟩ := List.mem_map.1 ha
    exact ⟨readAny_ok (h4 x hx).1, fun e => readAny_item ((h4 x hx).2.1 e), fun e => readAny_item ((h4 x hx).2.2 e)⟩
  | plain d => exact hc

theorem readOd_length (d : Od) : (odBytes (readOd d)).length = (odBytes d).length := readAny_length (.od d)

theorem flat_readOd (l : List Od) : ((l.map readOd).flatMap odBytes).length = (l.flatMap odBytes).length := by
  induction l with
  | nil => rfl
  | cons a l ih => simp only [List.map_cons, List.flatMap_cons, List.length_append, readOd_length, ih]

theorem readCmd_length (c : Cmd) : (cmdPayload (readCmd c)).length = (cmdPayload c).length := by
  cases c with
  | odUpdate ods ext => simp only [readCmd, cmdPayload, List.length_append, flat_readOd, flat_readAny]
  | esUpdate id es ref ext => simp only [readCmd, cmdPayload, List.length_append, flat_readAny]
  | plain d => rfl

theorem readCmd_carries {c : Cmd} (hc : Carries c) : Carries (readCmd c) := by
  cases c with
  | odUpdate ods ext =>
    intro d hd
    obtain ⟨x, hx, rfl⟩ := List.mem_map.1 hd
    exact hc x hx
  | esUpdate id es ref ext => exact hc
  | plain d => trivial

theorem readCmd_ids (c : Cmd) : cmdIds (readCmd c) = cmdIds c := by
  cases c with
  | odUpdate ods ext =>
    show (ods.map readOd).flatMap odIds = ods.flatMap odIds
    rw [List.flatMap_map]
    rfl
  | esUpdate id es ref ext => rfl
  | plain d => rfl

theorem readCmd_esIds (c : Cmd) : esIds (readCmd c) = esIds c := by
  cases c with
  | odUpdate ods ext =>
    show (ods.map readOd).flatMap _ = ods.flatMap _
    rw [List.flatMap_map]
    rfl
  | esUpdate id es ref ext => rfl
  | plain d => rfl

theorem shown_read (f : Nat → Es) (c : Cmd) : shown f (readCmd c) = shown f c := by
  cases c with
  | odUpdate ods ext =>
    simp only [readCmd, shown, List.map_map, Cmd.odUpdate.injEq]
    exact ⟨rfl, List.map_congr_left fun a _ => readAny_idem a⟩
  | esUpdate id es ref ext =>
    simp only [readCmd, shown, List.map_map, Cmd.esUpdate.injEq, true_and]
    exact List.map_congr_left fun a _ => readAny_idem a
  | plain d => rfl

/-! ## The frame that is stored -/

theorem cmdBytes_length (c : Cmd) : (cmdBytes c).length = 5 + (cmdPayload c).length := descr_length (by omega) _ _

theorem storeLoop_gives {cs : List Cmd} (hok : ∀ c ∈ cs, CmdOk c) (hc : ∀ c ∈ cs, Carries c)
    (hl : ∀ c ∈ cs, (cmdPayload c).length < 2 ^ 28) :
    ∀ (fuel : Nat) (m : Ref), cs.length < fuel → Fresh m.ids (cs.flatMap cmdIds) →
      storeLoop fuel (frame cs) m = ({ m with ids := m.ids ++ cs.flatMap cmdIds },
        .ok (outs cmdIds (fun n c => storedCmd n (readCmd c)) m.ids.length cs)) := by
  induction cs with
  | nil =>
    intro fuel m hf _
    obtain ⟨n, rfl⟩ : ∃ n, fuel = n + 1 := ⟨fuel - 1, by simp at hf; omega⟩
    simp [storeLoop, frame, outs]
  | cons c cs ih =>
    intro fuel m hf hm
    obtain ⟨n, rfl⟩ : ∃ n, fuel = n + 1 := ⟨fuel - 1, by simp at hf; omega⟩
    have hne : ¬ frame (c :: cs) = [] := by
      intro e
      have := congrArg List.length e
      simp only [frame, List.flatMap_cons, List.length_append, cmdBytes_length, List.length_nil] at this
      omega
    have hp := parses_cmd (hok c (by simp)) (hl c (by simp)) (frame cs) 0
    rw [List.flatMap_cons] at hm
    have es : frame (c :: cs) = cmdBytes c ++ frame cs := rfl
    unfold storeLoop
    rw [if_neg hne, es, hp]
    simp only
    have h1 := storeCmd_gives (readCmd c) (readCmd_carries (hc c (by simp))) m (by rw [readCmd_ids]; exact hm.left)
    rw [readCmd_ids] at h1
    unfold St.bind
    rw [h1]
    simp only
    have h2 := ih (fun d hd => hok d (by simp [hd])) (fun d hd => hc d (by simp [hd])) (fun d hd => hl d (by simp [hd])) n
      { m with ids := m.ids ++ cmdIds c } (by simp only [List.length_cons] at hf; omega) hm.right
    simp only [h2, St.pure, outs, List.flatMap_cons, List.append_assoc, List.length_append]

theorem writeCmds_ok {cs : List Cmd} {bytes : Cmd → Bytes} (h : ∀ c ∈ cs, runW (cmdSize c) (putCmd c) = .ok (bytes c)) :
    writeCmds cs = .ok (cs.flatMap bytes) := by
  unfold writeCmds
  rw [eachRes_ok h, bind_ok, List.flatMap_def]

theorem outs_mem {α β : Type} {ids : α → List Nat} {g : Nat → α → β} {l : List α} {b : β} :
    ∀ {n : Nat}, b ∈ outs ids g n l → ∃ a ∈ l, ∃ k, n ≤ k ∧ k + (ids a).length ≤ n + (l.flatMap ids).length ∧ b = g k a := by
  induction l with
  | nil => intro n h; cases h
  | cons a l ih =>
    intro n h
    unfold outs at h
    rw [List.flatMap_cons, List.length_append]
    rcases List.mem_cons.1 h with rfl | h
    · exact ⟨a, by simp, n, by omega, by omega, rfl⟩
    · obtain ⟨x, hx, k, h1, h2, rfl⟩ := ih h
      exact ⟨x, by simp [hx], k, by omega, by omega, rfl⟩

theorem outs_length {α β : Type} {ids : α → List Nat} {g : Nat → α → β} (l : List α) : ∀ n, (outs ids g n l).length = l.length := by
  induction l with
  | nil => intro n; rfl
  | cons a l ih => intro n; unfold outs; rw [List.length_cons, ih]; rfl

theorem outs_bytes {α β : Type} {ids : α → List Nat} {g : Nat → α → β} {s : α → Bytes} {t : β → Bytes} {l : List α}
    (h : ∀ a ∈ l, ∀ n, (t (g n a)).length ≤ (s a).length) :
    ∀ n, ((outs ids g n l).flatMap t).length ≤ (l.flatMap s).length := by
  induction l with
  | nil => intro n; exact Nat.le_refl _
  | cons a l ih =>
    intro n
    unfold outs
    simp only [List.flatMap_cons, List.length_append]
    have := h a (by simp) n
    have := ih (fun b hb => h b (by simp [hb])) (n + (ids a).length)
    omega

theorem storedPtr_ok {p : Ptr} (hp : PtrOk p) {k : Nat} (hk : k + (ptrIds p).length < 65535) : PtrOk (storedPtr k p) := by
  unfold storedPtr
  unfold ptrIds at hk
  by_cases h : Named p
  · rw [if_pos h] at hk ⊢
    refine ⟨hp.id, ⟨hp.numbers.1, ?_⟩, ?_⟩
    · simp only [List.length_singleton] at hk; simp only; omega
    · intro hi
      exact absurd (hp.short hi).2 h.1
  · rw [if_neg h]; exact hp

theorem storedPtr_length (p : Ptr) (k : Nat) : (ptrBytes (storedPtr k p)).length = (ptrBytes p).length := by
  have : (storedPtr k p).id = p.id := by unfold storedPtr; split <;> rfl
  unfold ptrBytes
  rw [descr_length (by omega), descr_length (by omega), ptrPayload_length, ptrPayload_length, this]

theorem refBytes_length (i : Nat) : (refBytes i).length = 7 := by
  unfold refBytes; rw [descr_length (by omega), be_length]

theorem esBytes_ge (e : Es) : 8 ≤ (esBytes e).length := by
  unfold esBytes
  rw [descr_length (by omega)]
  unfold esPayload esHead
  simp only [List.length_append, be_length]
  omega

theorem storedOd_ok {d : Od} (hd : OdOk d) {k : Nat} (hk : k + (odIds d).length < 65535) : OdOk (storedOd k d) := by
  rw [odIds_eq, List.length_append] at hk
  refine od_ok_of hd (.inr rfl) rfl rfl ?_ rfl rfl
  intro i hi
  simp only [Od.items, storedOd, List.map_nil, List.nil_append, List.mem_append, List.mem_map] at hi
  rcases hi with ⟨x, hx, rfl⟩ | ⟨x, hx, rfl⟩ | ⟨x, hx, rfl⟩ | ⟨x, hx, rfl⟩ | h
  · exact hd.items (.inc x) (by simp [Od.items, hx])
  · rcases hx with hx | hx
    · exact hd.items (.ref x) (by simp [Od.items, hx])
    · obtain ⟨e, he, j, h1, h2, rfl⟩ := outs_mem hx
      simp only [List.length_singleton] at h2
      exact show j + 1 < 2 ^ 16 by omega
  · exact hd.items (.child (.plain x)) (by simp [Od.items, hx])
  · obtain ⟨p, hp, j, h1, h2, rfl⟩ := outs_mem hx
    have : PtrOk p := hd.items (.child (.ptr p)) (by simp [Od.items, hp])
    exact storedPtr_ok this (by omega)
  · exact hd.items i (by simp [Od.items, h])

theorem storedOd_length (d : Od) (k : Nat) : (odBytes (storedOd k d)).length ≤ (odBytes d).length := by
  unfold odBytes
  rw [descr_length (by omega), descr_length (by omega)]
  unfold odPayload
  simp only [List.length_append, be_length, od_flat]
  have h1 := outs_bytes (ids := ptrIds) (g := storedPtr) (s := ptrBytes) (t := ptrBytes) (l := d.ptr)
    (fun p _ n => Nat.le_of_eq (storedPtr_length p n)) k
  have h2 := outs_bytes (ids := fun e : Es => [e.esid]) (g := fun n _ => n + 1) (s := esBytes) (t := refBytes) (l := d.es)
    (fun e _ n => by rw [refBytes_length]; have := esBytes_ge e; omega) (k + (d.ptr.flatMap ptrIds).length)
  simp only [storedOd, List.flatMap_nil, List.length_nil, List.flatMap_append, List.length_append]
  omega

theorem storedCmd_ok {c : Cmd} (hc : CmdOk c) {k : Nat} (hk : k + (cmdIds c).length < 65535) : CmdOk (storedCmd k c) := by
  cases c with
  | odUpdate ods ext =>
    refine ⟨?_, hc.2⟩
    intro d hd
    obtain ⟨x, hx, j, h1, h2, rfl⟩ := outs_mem hd
    have e : (cmdIds (.odUpdate ods ext)).length = (ods.flatMap odIds).length := rfl
    exact storedOd_ok (hc.1 x hx) (by omega)
  | esUpdate id es ref ext =>
    obtain ⟨h1, h2, h3, h4⟩ := hc
    refine ⟨h1, (by intro e he; cases he), ?_, h4⟩
    intro i hi
    rcases List.mem_append.1 hi with hi | hi
    · exact h3 i hi
    · obtain ⟨e, he, j, h5, h6, rfl⟩ := outs_mem hi
      rw [flatMap_esid] at h6
      have e : (cmdIds (.esUpdate id es ref ext)).length = (es.map (·.esid)).length := rfl
      simp only [List.length_singleton] at h6
      omega
  | plain d => exact hc

theorem storedCmd_length (c : Cmd) (k : Nat) : (cmdPayload (storedCmd k c)).length ≤ (cmdPayload c).length := by
  cases c with
  | odUpdate ods ext =>
    have := outs_bytes (ids := odIds) (g := storedOd) (s := odBytes) (t := odBytes) (l := ods)
      (fun d _ n => storedOd_length d n) k
    simp only [storedCmd, cmdPayload, List.length_append]
    omega
  | esUpdate id es ref ext =>
    have := outs_bytes (ids := fun e : Es => [e.esid]) (g := fun n _ => n + 1) (s := esBytes) (t := refBytes) (l := es)
      (fun e _ n => by rw [refBytes_length]; have := esBytes_ge e; omega) k
    simp only [storedCmd, cmdPayload, List.length_append, List.flatMap_append, List.flatMap_nil, List.length_nil]
    omega
  | plain d => exact Nat.le_refl _

theorem storedCmd_noStreams (c : Cmd) (k : Nat) : NoStreams (storedCmd k c) := by
  cases c with
  | odUpdate ods ext =>
    intro d hd
    obtain ⟨x, hx, j, h1, h2, rfl⟩ := outs_mem hd
    rfl
  | esUpdate id es ref ext => rfl
  | plain d => trivial

/-- The commands that are stored. -/
def stored (n : Nat) (cs : List Cmd) : List Cmd := outs cmdIds (fun n c => storedCmd n (readCmd c)) n cs

theorem stored_ok {cs : List Cmd} (hok : ∀ c ∈ cs, CmdOk c) (hl : ∀ c ∈ cs, (cmdPayload c).length < 2 ^ 28) {n : Nat}
    (hn : n + (cs.flatMap cmdIds).length < 65535) :
    ∀ c ∈ stored n cs, CmdOk c ∧ (cmdPayload c).length < 2 ^ 28 ∧ NoStreams c := by
  intro c hc
  obtain ⟨x, hx, k, h1, h2, rfl⟩ := outs_mem hc
  refine ⟨storedCmd_ok (readCmd_ok (hok x hx)) (by rw [readCmd_ids]; omega), ?_, storedCmd_noStreams _ _⟩
  have h3 := storedCmd_length (readCmd x) k
  rw [readCmd_length] at h3
  have := hl x hx
  omega

theorem length_le_frame (cs : List Cmd) : cs.length ≤ (frame cs).length := by
  induction cs with
  | nil => exact Nat.le_refl _
  | cons c cs ih =>
    unfold frame at ih ⊢
    rw [List.flatMap_cons, List.length_append, cmdBytes_length, List.length_cons]
    omega

theorem storeFrame_gives {cs : List Cmd} (hok : ∀ c ∈ cs, CmdOk c) (hc : ∀ c ∈ cs, Carries c)
    (hl : ∀ c ∈ cs, (cmdPayload c).length < 2 ^ 28) {m : Ref} (hf : Fresh m.ids (cs.flatMap cmdIds)) :
    storeFrame (frame cs) m =
      ({ m with ids := m.ids ++ cs.flatMap cmdIds }, .ok (frame (stored m.ids.length cs))) := by
  have h := storeLoop_gives hok hc hl ((frame cs).length + 1) m (by have := length_le_frame cs; omega) hf
  unfold storeFrame
  rw [h]
  simp only
  have hw : writeCmds (outs cmdIds (fun n c => storedCmd n (readCmd c)) m.ids.length cs) =
      .ok (frame (stored m.ids.length cs)) :=
    writeCmds_ok (bytes := cmdBytes) fun c hc => by
      obtain ⟨h1, h2, _⟩ := stored_ok hok hl hf.few c hc
      exact (written_cmd h1 h2).1
  rw [hw]

/-! ## Reading -/

theorem rewritePtr_stored {all pre post : List Nat} {p : Ptr} (hp : PtrOk p) (hl : pre.length + (ptrIds p).length < 65535)
    (e : all = pre ++ (ptrIds p ++ post)) : rewritePtr all (storedPtr pre.length p) = .ok p := by
  unfold storedPtr
  unfold ptrIds at e hl
  by_cases h : Named p
  · rw [if_pos h] at e hl ⊢
    simp only [List.length_singleton] at hl
    unfold rewritePtr
    simp only
    rw [if_pos ⟨by omega, by omega⟩]
    have : all[pre.length + 1 - 1]? = some p.es := by
      rw [Nat.add_sub_cancel, e, List.getElem?_append_right (Nat.le_refl _), Nat.sub_self]
      rfl
    rw [this]
    simp only
    rw [Nat.mod_eq_of_lt hp.numbers.2]
  · rw [if_neg h]
    unfold rewritePtr
    rw [if_neg (show ¬ (p.es ≠ 0 ∧ p.es ≠ 0xFFFF) from h)]

theorem rewritePtr_unnamed {all : List Nat} {p : Ptr} (h : ¬ Named p) : rewritePtr all p = .ok p := by
  unfold rewritePtr
  rw [if_neg (show ¬ (p.es ≠ 0 ∧ p.es ≠ 0xFFFF) from h)]

theorem rewriteRef_stored {v : Mov} {sl : Option Sl} {all pre post : List Nat} {id : Nat} {e : Es}
    (h : makeESD v sl id = .ok e) (hp : ∀ p ∈ e.ptrs, ¬ Named p) (ha : all = pre ++ ([id] ++ post)) :
    rewriteRef v sl all (pre.length + 1) = .ok e := by
  unfold rewriteRef
  have hl : all.length = pre.length + 1 + post.length := by
    rw [ha]; simp only [List.length_append, List.length_singleton]; omega
  have hg : all[pre.length + 1 - 1]? = some id := by
    rw [Nat.add_sub_cancel, ha, List.getElem?_append_right (Nat.le_refl _), Nat.sub_self]
    rfl
  rw [if_neg (by omega), if_neg (by omega), hg]
  simp only
  rw [h, bind_ok, eachRes_ok (g := fun p => p) fun p hm => rewritePtr_unnamed (hp p hm), bind_ok, List.map_id']

theorem rewriteOd_stored {v : Mov} {sl : Option Sl} {F : Nat → Es} {all pre post : List Nat} {d : Od} (hd : OdOk d)
    (hr : d.ref = []) (hl : pre.length + (odIds d).length < 65535) (ha : all = pre ++ (odIds d ++ post))
    (hF : ∀ e ∈ d.es, makeESD v sl e.esid = .ok (F e.esid) ∧ ∀ p ∈ (F e.esid).ptrs, ¬ Named p) :
    rewriteOd v sl all (readOd (storedOd pre.length d)) =
      .ok { d with tag := 0x01, es := d.es.map fun e => F e.esid } := by
  rw [odIds_eq] at hl ha
  rw [List.length_append] at hl
  rw [List.append_assoc] at ha
  unfold rewriteOd
  have h1 : eachRes (rewritePtr all) (outs ptrIds storedPtr pre.length d.ptr) = .ok (d.ptr.map fun p => p) := by
    have key : ∀ (l : List Ptr) (pre post : List Nat), (∀ p ∈ l, PtrOk p) →
        pre.length + (l.flatMap ptrIds).length < 65535 → all = pre ++ (l.flatMap ptrIds ++ post) →
        eachRes (rewritePtr all) (outs ptrIds storedPtr pre.length l) = .ok (l.map fun p => p) := by
      intro l
      induction l with
      | nil => intro pre post _ _ _; rfl
      | cons a l ih =>
        intro pre post hp hl e
        rw [List.flatMap_cons, List.length_append] at hl
        rw [List.flatMap_cons, List.append_assoc] at e
        unfold outs eachRes
        rw [rewritePtr_stored (hp a (by simp)) (by omega) e, bind_ok]
        have := ih (pre ++ ptrIds a) post (fun p hm => hp p (by simp [hm])) (by rw [List.length_append]; omega)
          (by rw [e, List.append_assoc])
        rw [List.length_append] at this
        rw [this, bind_ok]
        rfl
    exact key d.ptr pre _ (fun p hp => hd.items (.child (.ptr p)) (by simp [Od.items, hp])) (by omega) ha
  have h2 : eachRes (rewriteRef v sl all) (outs (fun e => [e.esid]) (fun n _ => n + 1)
      (pre.length + (d.ptr.flatMap ptrIds).length) d.es) = .ok (d.es.map fun e => F e.esid) := by
    have := eachRes_outs (ids := fun e : Es => [e.esid]) (g := fun n (_ : Es) => n + 1) (h := rewriteRef v sl all)
      (k := fun e : Es => F e.esid) (l := d.es) (all := all)
      (fun e he pre post ha => rewriteRef_stored (hF e he).1 (hF e he).2 ha)
      (pre ++ d.ptr.flatMap ptrIds) post (by rw [ha, List.append_assoc])
    rw [List.length_append] at this
    exact this
  simp only [readOd, storedOd, hr, List.nil_append]
  rw [h1, bind_ok, h2, bind_ok, List.map_id']

theorem rewriteCmd_stored {v : Mov} {sl : Option Sl} {F : Nat → Es} {all pre post : List Nat} {c : Cmd} (hok : CmdOk c)
    (hc : Carries c) (hl : pre.length + (cmdIds c).length < 65535) (ha : all = pre ++ (cmdIds c ++ post))
    (hF : ∀ id ∈ esIds c, makeESD v sl id = .ok (F id) ∧ ∀ p ∈ (F id).ptrs, ¬ Named p) :
    rewriteCmd v sl all (readCmd (storedCmd pre.length c)) = .ok (shown F c) := by
  cases c with
  | odUpdate ods ext =>
    have key : ∀ (l : List Od) (pre post : List Nat), (∀ d ∈ l, d ∈ ods) → pre.length + (l.flatMap odIds).length < 65535 →
        all = pre ++ (l.flatMap odIds ++ post) →
        eachRes (fun d => rewriteOd v sl all (readOd d)) (outs odIds storedOd pre.length l) =
          .ok (l.map fun d => { d with tag := 0x01, es := d.es.map fun e => F e.esid }) := by
      intro l
      induction l with
      | nil => intro pre post _ _ _; rfl
      | cons d l ih =>
        intro pre post hm hl e
        rw [List.flatMap_cons, List.length_append] at hl
        rw [List.flatMap_cons, List.append_assoc] at e
        have hd := hm d (by simp)
        unfold outs eachRes
        rw [rewriteOd_stored (F := F) (hok.1 d hd) (hc d hd).1 (by omega) e fun x hx =>
          hF x.esid (List.mem_flatMap.2 ⟨d, hd, List.mem_map.2 ⟨x, hx, rfl⟩⟩), bind_ok]
        have := ih (pre ++ odIds d) post (fun x hx => hm x (by simp [hx])) (by rw [List.length_append]; omega)
          (by rw [e, List.append_assoc])
        rw [List.length_append] at this
        rw [this, bind_ok]
        rfl
    simp only [storedCmd, readCmd, rewriteCmd, shown]
    rw [eachRes_map, key ods pre post (fun _ h => h) hl ha, bind_ok]
  | esUpdate id es ref ext =>
    obtain ⟨hr, hp⟩ := hc
    subst hr
    have h2 : eachRes (rewriteRef v sl all) (outs (fun e => [e.esid]) (fun n _ => n + 1) pre.length es) =
        .ok (es.map fun e => F e.esid) :=
      eachRes_outs (ids := fun e : Es => [e.esid]) (g := fun n (_ : Es) => n + 1) (h := rewriteRef v sl all)
        (k := fun e : Es => F e.esid) (l := es) (all := all)
        (fun e he pre post ha => by
          have := hF e.esid (List.mem_map.2 ⟨e, he, rfl⟩)
          exact rewriteRef_stored this.1 this.2 ha) pre post (by rw [flatMap_esid]; exact ha)
    simp only [storedCmd, readCmd, rewriteCmd, shown, List.nil_append]
    rw [h2, bind_ok]
  | plain d => rfl

theorem rewriteLoop_stored {v : Mov} {sl : Option Sl} {F : Nat → Es} {all : List Nat} {cs : List Cmd}
    (hok : ∀ c ∈ cs, CmdOk c) (hc : ∀ c ∈ cs, Carries c) (hl : ∀ c ∈ cs, (cmdPayload c).length < 2 ^ 28)
    (hF : ∀ c ∈ cs, ∀ id ∈ esIds c, makeESD v sl id = .ok (F id) ∧ ∀ p ∈ (F id).ptrs, ¬ Named p) :
    ∀ (fuel : Nat) (pre post : List Nat), cs.length < fuel → pre.length + (cs.flatMap cmdIds).length < 65535 →
      all = pre ++ (cs.flatMap cmdIds ++ post) →
      rewriteLoop v sl all fuel (frame (stored pre.length cs)) = .ok (cs.map (shown F)) := by
  induction cs with
  | nil =>
    intro fuel pre post hf _ _
    obtain ⟨n, rfl⟩ : ∃ n, fuel = n + 1 := ⟨fuel - 1, by simp at hf; omega⟩
    simp [rewriteLoop, frame, stored, outs]
  | cons c cs ih =>
    intro fuel pre post hf hn e
    obtain ⟨n, rfl⟩ : ∃ n, fuel = n + 1 := ⟨fuel - 1, by simp at hf; omega⟩
    obtain ⟨h1, h2, _⟩ := stored_ok hok hl (n := pre.length) hn (storedCmd pre.length (readCmd c)) (by
      unfold stored outs; simp)
    rw [List.flatMap_cons, List.length_append] at hn
    rw [List.flatMap_cons, List.append_assoc] at e
    have es : frame (stored pre.length (c :: cs)) =
        cmdBytes (storedCmd pre.length (readCmd c)) ++ frame (stored (pre.length + (cmdIds c).length) cs) := rfl
    have hne : ¬ frame (stored pre.length (c :: cs)) = [] := by
      intro h
      have := congrArg List.length h
      rw [es, List.length_append, cmdBytes_length] at this
      simp at this
    have hp := parses_cmd h1 h2 (frame (stored (pre.length + (cmdIds c).length) cs)) 0
    unfold rewriteLoop
    rw [if_neg hne, es, hp]
    simp only
    have hF' : ∀ id ∈ esIds (readCmd c), makeESD v sl id = .ok (F id) ∧ ∀ p ∈ (F id).ptrs, ¬ Named p := by
      rw [readCmd_esIds]; exact hF c (by simp)
    have h3 := rewriteCmd_stored (readCmd_ok (hok c (by simp))) (readCmd_carries (hc c (by simp))) (pre := pre)
      (post := cs.flatMap cmdIds ++ post) (all := all) (by rw [readCmd_ids]; omega) (by rw [readCmd_ids]; exact e) hF'
    rw [h3, bind_ok, shown_read]
    have h4 := ih (fun d hd => hok d (by simp [hd])) (fun d hd => hc d (by simp [hd])) (fun d hd => hl d (by simp [hd]))
      (fun d hd => hF d (by simp [hd])) n (pre ++ cmdIds c) post (by simp only [List.length_cons] at hf; omega)
      (by rw [List.length_append]; omega) (by rw [e, List.append_assoc])
    rw [List.length_append] at h4
    rw [h4, bind_ok]
    rfl

/-! ## The description of a track -/

theorem makeESD_shows {v : Mov} {sl : Option Sl} {id : Nat} {e : Es} (h : Shows v sl id e) :
    ∃ E, makeESD v sl id = .ok E ∧ esNorm E = e ∧ ∀ p ∈ E.ptrs, ¬ Named p := by
  obtain ⟨t, file, h1, h2, h3, h4, h56, h7, rfl⟩ := h
  have hid : t.id = id := by simpa using List.find?_some h1
  have hcp := c74_copy (a := .item (.es file)) h3 h4
  unfold makeESD
  rw [h1]
  simp only [h2, hcp, readAny]
  cases hd : t.depends <;> cases hk : t.clock <;> cases sl with
  | none =>
    obtain ⟨c, h5, h6⟩ := h56 rfl
    simp only [h5, if_pos h6]
    refine ⟨_, rfl, ?_, h7⟩
    simp only [esNorm, described, hid, hd, hk, List.headD_nil, List.headD_cons]
    rfl
  | some g =>
    refine ⟨_, rfl, ?_, h7⟩
    simp only [esNorm, described, hid, hd, hk, List.headD_nil, List.headD_cons, Option.map_some, slNorm, givenSl]
    by_cases hg : g.durations = true
    · simp only [hg, if_true]
    · simp only [Bool.not_eq_true] at hg
      simp only [hg, Bool.false_eq_true, if_false]

theorem cmdNorm_shown {F f : Nat → Es} {c : Cmd} (h : ∀ id ∈ esIds c, esNorm (F id) = f id) :
    cmdNorm (shown F c) = shown f c := by
  cases c with
  | odUpdate ods ext =>
    simp only [shown, cmdNorm, List.map_map, Cmd.odUpdate.injEq, and_true]
    refine List.map_congr_left fun d hd => ?_
    simp only [Function.comp, odNorm, List.map_map]
    have : d.es.map (esNorm ∘ fun e => F e.esid) = d.es.map fun e => f e.esid :=
      List.map_congr_left fun e he => h e.esid (List.mem_flatMap.2 ⟨d, hd, List.mem_map.2 ⟨e, he, rfl⟩⟩)
    rw [this]
  | esUpdate id es ref ext =>
    simp only [shown, cmdNorm, List.map_map, Cmd.esUpdate.injEq, true_and, and_true]
    exact List.map_congr_left fun e he => h e.esid (List.mem_map.2 ⟨e, he, rfl⟩)
  | plain d => rfl

theorem shown_ok {f : Nat → Es} {c : Cmd} (hc : CmdOk c) (h : ∀ id ∈ esIds c, EsOk (f id)) : CmdOk (shown f c) := by
  cases c with
  | odUpdate ods ext =>
    refine ⟨?_, (readCmd_ok (c := .odUpdate ods ext) hc).2⟩
    intro d hd
    obtain ⟨x, hx, rfl⟩ := List.mem_map.1 hd
    refine od_ok_of (hc.1 x hx) (.inl rfl) rfl rfl ?_ rfl rfl
    intro i hi
    unfold Od.items at hi
    rcases List.mem_append.1 hi with hi | hi
    · simp only [List.map_map, List.mem_map] at hi
      obtain ⟨e, he, rfl⟩ := hi
      exact h e.esid (List.mem_flatMap.2 ⟨x, hx, List.mem_map.2 ⟨e, he, rfl⟩⟩)
    · refine (hc.1 x hx).items i ?_
      unfold Od.items
      exact List.mem_append_right _ hi
  | esUpdate id es ref ext =>
    obtain ⟨h1, h2, h3, h4⟩ := readCmd_ok hc
    refine ⟨h1, ?_, h3, h4⟩
    intro e he
    obtain ⟨x, hx, rfl⟩ := List.mem_map.1 he
    exact h x.esid (List.mem_map.2 ⟨x, hx, rfl⟩)
  | plain d => exact hc

theorem rewriteFrame_gives {v : Mov} {sl : Option Sl} {f : Nat → Es} {known later : List Nat} {cs : List Cmd}
    (hok : ∀ c ∈ cs, CmdOk c) (hc : ∀ c ∈ cs, Carries c) (hl : ∀ c ∈ cs, (cmdPayload c).length < 2 ^ 28)
    (hn : known.length + (cs.flatMap cmdIds).length < 65535)
    (hf : ∀ c ∈ cs, ∀ id ∈ esIds c, Shows v sl id (f id) ∧ EsOk (f id))
    (hs : ∀ c ∈ cs, (cmdPayload (shown f c)).length < 2 ^ 28) :
    rewriteFrame v sl (known ++ (cs.flatMap cmdIds ++ later)) (frame (stored known.length cs)) =
      .ok (frame (cs.map (shown f))) := by
  let F : Nat → Es := fun id => match makeESD v sl id with | .ok e => e | _ => f id
  have hF : ∀ c ∈ cs, ∀ id ∈ esIds c, makeESD v sl id = .ok (F id) ∧ esNorm (F id) = f id ∧ ∀ p ∈ (F id).ptrs, ¬ Named p := by
    intro c hc id hi
    obtain ⟨E, h1, h2, h3⟩ := makeESD_shows (hf c hc id hi).1
    have : F id = E := by show (match makeESD v sl id with | .ok e => e | _ => f id) = E; rw [h1]
    rw [this]
    exact ⟨h1, h2, h3⟩
  have hlen : cs.length < (frame (stored known.length cs)).length + 1 := by
    have := length_le_frame (stored known.length cs)
    rw [show (stored known.length cs).length = cs.length from outs_length cs _] at this
    omega
  unfold rewriteFrame
  rw [rewriteLoop_stored (F := F) hok hc hl (fun c h id hi => ⟨(hF c h id hi).1, (hF c h id hi).2.2⟩) _ known later hlen hn rfl,
    bind_ok]
  have hw : ∀ c ∈ cs, runW (cmdSize (shown F c)) (putCmd (shown F c)) = .ok (cmdBytes (shown f c)) := by
    intro c hm
    rw [← cmdSize_norm, ← putCmd_norm, cmdNorm_shown fun id hi => (hF c hm id hi).2.1]
    exact (written_cmd (shown_ok (hok c hm) fun id hi => (hf c hm id hi).2) (hs c hm)).1
  unfold writeCmds
  rw [eachRes_map, eachRes_ok (g := fun c => cmdBytes (shown f c)) hw, bind_ok]
  unfold frame
  rw [List.flatMap_map, List.flatMap_def]

end Verif.Od
