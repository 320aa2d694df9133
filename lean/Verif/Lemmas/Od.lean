import Verif.Spec.Od

/-!
# Lemmas on object descriptors and commands
-/

namespace Verif.Od

open Verif.Descr

/-- A value is written as the bytes, and they have the computed size. -/
def Written {α : Type} (size : α → Nat) (put : α → W) (bytes : α → Bytes) (a : α) : Prop :=
  runW (size a) (put a) = .ok (bytes a) ∧ (bytes a).length = size a

/-! ## Lists -/

theorem emits_all {α : Type} {size : α → Nat} {put : α → W} {bytes : α → Bytes} {l : List α}
    (h : ∀ a ∈ l, Written size put bytes a) : Emits (putAll size put l) (l.flatMap bytes) :=
  Emits.each l fun a ha => emits_nested (h a ha).1 (h a ha).2

theorem size_all {α : Type} {size : α → Nat} {put : α → W} {bytes : α → Bytes} {l : List α}
    (h : ∀ a ∈ l, Written size put bytes a) : sizeAll size l = (l.flatMap bytes).length := by
  unfold sizeAll
  induction l with
  | nil => rfl
  | cons a l ih =>
    rw [List.map_cons, List.sum_cons, List.flatMap_cons, List.length_append, ih fun x hx => h x (by simp [hx]),
      (h a (by simp)).2]

theorem parsesAt_loop {α β σ : Type} {size : Nat} {get : Nat → Nat → P α} {add : σ → α → σ} {bytes : β → Bytes}
    {v : β → α} (cs : List β) : ∀ (s : σ) (fuel k : Nat), cs.length < fuel →
    (∀ c ∈ cs, Parses (getDesc get) (bytes c) (v c) ∧ 1 ≤ (bytes c).length) →
    k + (cs.flatMap bytes).length = size →
    ParsesAt (loop size get add fuel s) k (cs.flatMap bytes) ((cs.map v).foldl add s) := by
  induction cs with
  | nil =>
    intro s fuel k hf _ hk
    obtain ⟨f, rfl⟩ : ∃ f, fuel = f + 1 := ⟨fuel - 1, by simp at hf; omega⟩
    unfold loop
    refine parsesAt_bytesRead ?_
    rw [if_neg (by simp at hk; omega)]
    exact (parses_pure _).at _
  | cons c cs ih =>
    intro s fuel k hf hp hk
    obtain ⟨f, rfl⟩ : ∃ f, fuel = f + 1 := ⟨fuel - 1, by simp at hf; omega⟩
    obtain ⟨h1, hpos⟩ := hp c (by simp)
    rw [List.flatMap_cons, List.length_append] at hk
    rw [List.flatMap_cons]
    unfold loop
    refine parsesAt_bytesRead ?_
    rw [if_pos (by omega)]
    refine (h1.at _).bind ?_
    exact ih (add s (v c)) f _ (by simp at hf; omega) (fun x hx => hp x (by simp [hx])) (by omega)

theorem parsesAt_all {α β σ : Type} {size k : Nat} {get : Nat → Nat → P α} {add : σ → α → σ} {bytes : β → Bytes}
    {v : β → α} {cs : List β} {s : σ} (hp : ∀ c ∈ cs, Parses (getDesc get) (bytes c) (v c) ∧ 1 ≤ (bytes c).length)
    (hk : k + (cs.flatMap bytes).length = size) :
    ParsesAt (getAll size get add s) k (cs.flatMap bytes) ((cs.map v).foldl add s) := by
  have hle : cs.length ≤ (cs.flatMap bytes).length := by
    clear hk
    induction cs with
    | nil => simp
    | cons c cs ih =>
      have h1 := (hp c (by simp)).2
      have h2 := ih fun x hx => hp x (by simp [hx])
      rw [List.flatMap_cons, List.length_append, List.length_cons]
      omega
  intro r
  unfold getAll
  rw [P.bind_apply]
  simp only [P.available]
  exact parsesAt_loop cs s _ k (by simp only [List.length_append]; omega) hp hk r

/-! ## Descriptors inside -/

theorem written_inc (id : Nat) : Written incSize putInc incBytes id := by
  have e : incSize id = 5 + (be 4 id).length := by rw [be_length]; rfl
  have hl : (incBytes id).length = incSize id := by unfold incBytes; rw [descr_length (by omega), e]
  refine ⟨?_, hl⟩
  unfold putInc
  rw [show incSize id = 5 + (be 4 id).length from e]
  exact (emits_descr (by rw [be_length]; omega) (emits_put32 id)).run_ok (by rw [← e]; exact hl) (by rw [be_length]; omega)

theorem written_ref (i : Nat) : Written refSize putRef refBytes i := by
  have e : refSize i = 5 + (be 2 i).length := by rw [be_length]; rfl
  have hl : (refBytes i).length = refSize i := by unfold refBytes; rw [descr_length (by omega), e]
  refine ⟨?_, hl⟩
  unfold putRef
  rw [show refSize i = 5 + (be 2 i).length from e]
  exact (emits_descr (by rw [be_length]; omega) (emits_put16 i)).run_ok (by rw [← e]; exact hl) (by rw [be_length]; omega)

theorem written_child {c : Child} (hc : ChildOk c) (h : (childBytes c).length < 2 ^ 28) :
    Written childSize putChild childBytes c := by
  cases c with
  | dec d =>
    simp only [childBytes, decBytes] at h
    rw [descr_length (by omega)] at h
    exact run_dec hc (by omega)
  | sl c => exact run_sl hc
  | ptr p => exact run_ptr p
  | plain d =>
    simp only [childBytes, plainBytes_length] at h
    exact run_plain (by omega)

theorem written_es {e : Es} (he : EsOk e) (h : (esBytes e).length < 2 ^ 28) : Written esSize putEs esBytes e := by
  unfold esBytes at h
  rw [descr_length (by omega)] at h
  exact run_es he (by omega)

theorem written_item {i : Item} (hi : ItemOk i) (h : (itemBytes i).length < 2 ^ 28) :
    Written itemSize putItem itemBytes i := by
  cases i with
  | es e => exact written_es hi h
  | inc id => exact written_inc id
  | ref i => exact written_ref i
  | child c => exact written_child hi h

theorem itemBytes_pos (i : Item) : 1 ≤ (itemBytes i).length := by
  cases i with
  | es e => simp only [itemBytes, esBytes, descr_length (k := 4) (by omega : 1 ≤ 4)]; omega
  | inc id => simp only [itemBytes, incBytes, descr_length (k := 4) (by omega : 1 ≤ 4)]; omega
  | ref i => simp only [itemBytes, refBytes, descr_length (k := 4) (by omega : 1 ≤ 4)]; omega
  | child c => exact childBytes_pos c

/-- The tag, with which the class is chosen. -/
def Item.tag : Item → Nat
  | .es _ => 3
  | .inc _ => 0x0E
  | .ref _ => 0x0F
  | .child (.dec _) => 4
  | .child (.sl _) => 6
  | .child (.ptr _) => 0x0A
  | .child (.plain d) => d.tag

def Item.payload : Item → Bytes
  | .es e => esPayload e
  | .inc id => be 4 id
  | .ref i => be 2 i
  | .child (.dec d) => decPayload d
  | .child (.sl c) => slPayload c
  | .child (.ptr p) => ptrPayload p
  | .child (.plain d) => d.data

theorem itemBytes_eq (i : Item) : itemBytes i = descr 4 i.tag i.payload := by
  cases i with
  | child c => cases c <;> rfl
  | _ => rfl

theorem tag_own {i : Item} (hi : ItemOk i) : i.tag < 256 ∧ i.tag ≠ 1 ∧ i.tag ≠ 2 ∧ i.tag ≠ 0x10 ∧ i.tag ≠ 0x11 := by
  cases i with
  | child c =>
    cases c with
    | plain d =>
      obtain ⟨h1, h2⟩ := hi
      refine ⟨h1, ?_, ?_, ?_, ?_⟩ <;> · intro e; simp only [Item.tag] at e; rw [e] at h2; revert h2; decide
    | _ => refine ⟨?_, ?_, ?_, ?_, ?_⟩ <;> simp [Item.tag]
  | _ => refine ⟨?_, ?_, ?_, ?_, ?_⟩ <;> simp [Item.tag]

theorem parsesAt_child {c : Child} (hc : ChildOk c) (h : (Item.child c).payload.length < 2 ^ 28) :
    ParsesAt (getChild (Item.child c).tag (5 + (Item.child c).payload.length)) 5 (Item.child c).payload c := by
  cases c with
  | dec d =>
    unfold getChild Item.tag
    simp only
    rw [if_pos (by decide)]
    exact (parsesAt_dec hc h).bind_nil ((parses_pure _).at _)
  | sl c =>
    unfold getChild Item.tag
    simp only
    rw [if_neg (by decide), if_pos (by decide)]
    exact (parsesAt_sl hc).bind_nil ((parses_pure _).at _)
  | ptr p =>
    unfold getChild Item.tag
    simp only
    rw [if_neg (by decide), if_neg (by decide), if_pos (by decide)]
    exact (parsesAt_ptr hc).bind_nil ((parses_pure _).at _)
  | plain d =>
    obtain ⟨ht, ho⟩ := hc
    have h4 : d.tag ≠ 4 := by intro e; rw [e] at ho; revert ho; decide
    have h6 : d.tag ≠ 6 := by intro e; rw [e] at ho; revert ho; decide
    have h10 : d.tag ≠ 10 := by intro e; rw [e] at ho; revert ho; decide
    simp only [Item.payload] at h ⊢
    unfold getChild Item.tag
    simp only
    rw [if_neg h4, if_neg h6, if_neg h10, ho, if_neg (by simp)]
    exact (parsesAt_default (k := 4) (by omega)).bind_nil ((parses_pure _).at _)

theorem parsesAt_item {i : Item} (hi : ItemOk i) (h : i.payload.length < 2 ^ 28) :
    ParsesAt (getItem i.tag (5 + i.payload.length)) 5 i.payload i := by
  cases i with
  | es e =>
    unfold getItem Item.tag
    simp only
    rw [if_pos (by decide)]
    exact (parsesAt_es hi h).bind_nil ((parses_pure _).at _)
  | inc id =>
    unfold getItem Item.tag
    simp only
    rw [if_neg (by decide), if_pos (by decide)]
    exact ((parses_get32' hi).at _).bind_nil ((parses_pure _).at _)
  | ref j =>
    unfold getItem Item.tag
    simp only
    rw [if_neg (by decide), if_neg (by decide), if_pos (by decide)]
    exact ((parses_get16' hi).at _).bind_nil ((parses_pure _).at _)
  | child c =>
    have h3 : ∀ t, t = 3 ∨ t = 0x0E ∨ t = 0x0F → (Item.child c).tag ≠ t := by
      intro t ht he
      cases c with
      | plain d =>
        have ho := hi.2
        simp only [Item.tag] at he
        rw [he] at ho
        rcases ht with rfl | rfl | rfl <;> revert ho <;> decide
      | dec d => simp only [Item.tag] at he; omega
      | sl d => simp only [Item.tag] at he; omega
      | ptr d => simp only [Item.tag] at he; omega
    unfold getItem
    rw [if_neg (h3 3 (by simp)), if_neg (h3 14 (by simp)), if_neg (h3 15 (by simp))]
    exact (parsesAt_child hi h).bind_nil ((parses_pure _).at _)

theorem item_payload_lt {i : Item} (h : (itemBytes i).length < 2 ^ 28) : i.payload.length < 2 ^ 28 := by
  rw [itemBytes_eq, descr_length (by omega)] at h
  omega

theorem parses_item {i : Item} (hi : ItemOk i) (h : (itemBytes i).length < 2 ^ 28) :
    Parses (getDesc getItem) (itemBytes i) i := by
  have hp := item_payload_lt h
  rw [itemBytes_eq]
  exact parses_desc (by omega) (by omega) (by omega) (tag_own hi).1 (parsesAt_item hi hp)

theorem items_lt {l : List Item} {n : Nat} (h : (l.flatMap itemBytes).length < n) {i : Item} (hi : i ∈ l) :
    (itemBytes i).length < n := by
  have := mem_flat_le (f := itemBytes) hi
  omega

/-! ## Object descriptor -/

theorem flat_map {α : Type} (l : List α) (f : α → Item) (g : α → Bytes) (h : ∀ a, itemBytes (f a) = g a) :
    (l.map f).flatMap itemBytes = l.flatMap g := by
  rw [List.flatMap_map]
  exact congrArg (List.flatMap · l) (funext h)

theorem od_flat (d : Od) : d.items.flatMap itemBytes = d.es.flatMap esBytes ++ (d.inc.flatMap incBytes ++
    (d.ref.flatMap refBytes ++ (d.oci.flatMap plainBytes ++ (d.ptr.flatMap ptrBytes ++ d.ext.flatMap itemBytes)))) := by
  simp only [Od.items, List.flatMap_append]
  rw [flat_map d.es .es esBytes fun _ => rfl, flat_map d.inc .inc incBytes fun _ => rfl,
    flat_map d.ref .ref refBytes fun _ => rfl, flat_map d.oci _ plainBytes fun _ => rfl,
    flat_map d.ptr _ ptrBytes fun _ => rfl]

theorem url_length (url : Bytes) : (urlBytes url).length = if url.length ≠ 0 then url.length + 1 else 0 := by
  unfold urlBytes
  cases url with
  | nil => rfl
  | cons a l => simp; omega

theorem emits_url (url : Bytes) :
    Emits (if url.length ≠ 0 then put8 url.length ;; putBytes url else W.skip) (urlBytes url) := by
  unfold urlBytes
  by_cases hz : url = []
  · rw [if_pos hz, if_neg (by simp [hz])]; exact emits_skip
  · rw [if_neg hz, if_pos (by simpa using hz)]; exact (emits_put8 _).seq (emits_bytes _)

theorem od_word {id : Nat} (hid : id < 1024) (c : Prop) [Decidable c] :
    w16(id <<< 6) ||| (if c then 1 <<< 5 else 0) ||| 0x1F = id * 64 + (if c then 32 else 0) + 31 := by
  have e : w16(id <<< 6) = id <<< 6 := by rw [Nat.shiftLeft_eq]; omega
  rw [e, Nat.or_assoc]
  by_cases h : c
  · rw [if_pos h, if_pos h, show (1 <<< 5 ||| 0x1F : Nat) = 63 from rfl, or_shift_eq (by omega)]
  · rw [if_neg h, if_neg h, show (0 ||| 0x1F : Nat) = 31 from rfl, or_shift_eq (by omega)]

theorem iod_word {id : Nat} (hid : id < 1024) (c e : Prop) [Decidable c] [Decidable e] :
    w16(id <<< 6) ||| (if c then 1 <<< 5 else 0) ||| (if e then 1 <<< 4 else 0) ||| 0xF =
      id * 64 + (if c then 32 else 0) + (if e then 16 else 0) + 15 := by
  have e1 : w16(id <<< 6) = id <<< 6 := by rw [Nat.shiftLeft_eq]; omega
  rw [e1, Nat.or_assoc, Nat.or_assoc]
  by_cases h : c <;> by_cases h' : e
  · rw [if_pos h, if_pos h, if_pos h', if_pos h', show (1 <<< 5 ||| (1 <<< 4 ||| 0xF) : Nat) = 63 from rfl,
      or_shift_eq (by omega)]
  · rw [if_pos h, if_pos h, if_neg h', if_neg h', show (1 <<< 5 ||| (0 ||| 0xF) : Nat) = 47 from rfl,
      or_shift_eq (by omega)]
  · rw [if_neg h, if_neg h, if_pos h', if_pos h', show (0 ||| (1 <<< 4 ||| 0xF) : Nat) = 31 from rfl,
      or_shift_eq (by omega)]
  · rw [if_neg h, if_neg h, if_neg h', if_neg h', show (0 ||| (0 ||| 0xF) : Nat) = 15 from rfl,
      or_shift_eq (by omega)]

theorem written_od {d : Od} (hd : OdOk d) (h : (odPayload d).length < 2 ^ 28) : Written odSize putOd odBytes d := by
  have hit : ∀ i ∈ d.items, Written itemSize putItem itemBytes i := by
    intro i hi
    refine written_item (hd.items i hi) ?_
    have := mem_flat_le (f := itemBytes) hi
    simp only [odPayload, List.length_append] at h
    omega
  have w1 : ∀ e ∈ d.es, Written esSize putEs esBytes e := fun e he => hit (.es e) (by simp [Od.items, he])
  have w4 : ∀ x ∈ d.oci, Written defaultSize putDefault plainBytes x :=
    fun x hx => hit (.child (.plain x)) (by simp [Od.items, hx])
  have w6 : ∀ i ∈ d.ext, Written itemSize putItem itemBytes i := fun i hi => hit i (by simp [Od.items, hi])
  have hsz : odSize d = 5 + (odPayload d).length := by
    have hpl : (odPayload d).length = 2 + (urlBytes d.url).length + (d.items.flatMap itemBytes).length := by
      simp only [odPayload, List.length_append, be_length]; omega
    rw [od_flat, url_length] at hpl
    simp only [List.length_append] at hpl
    unfold odSize
    rw [size_all w1, size_all fun a _ => written_inc a, size_all fun a _ => written_ref a, size_all w4,
      size_all (put := putPtr) (bytes := ptrBytes) fun a _ => run_ptr a, size_all w6]
    generalize (if d.url.length ≠ 0 then d.url.length + 1 else 0) = n at *
    omega
  have hl : (odBytes d).length = odSize d := by unfold odBytes; rw [descr_length (by omega), hsz]
  refine ⟨?_, hl⟩
  refine Emits.run_ok ?_ hl (by omega)
  unfold putOd
  rw [hsz, od_word hd.id]
  refine emits_descr h ?_
  unfold odPayload
  rw [od_flat]
  have he : (if d.url.length ≠ 0 then 32 else 0) = if d.url = [] then 0 else 32 := by
    simp only [ne_eq, List.length_eq_zero_iff, ite_not]
  rw [he]
  exact (emits_put16 _).seq ((emits_url _).seq ((emits_all w1).seq ((emits_all fun a _ => written_inc a).seq
    ((emits_all fun a _ => written_ref a).seq ((emits_all w4).seq ((emits_all fun a _ => run_ptr a).seq
      (emits_all w6)))))))

theorem and_bit (x i : Nat) : x &&& 2 ^ i = if x / 2 ^ i % 2 = 1 then 2 ^ i else 0 := by
  apply Nat.eq_of_testBit_eq
  intro j
  rw [Nat.testBit_and, Nat.testBit_two_pow]
  by_cases hj : i = j
  · subst hj
    rw [Nat.testBit_eq_decide_div_mod_eq]
    by_cases h : x / 2 ^ i % 2 = 1
    · rw [if_pos h, Nat.testBit_two_pow]; simp [h]
    · rw [if_neg h]; simp [h]
  · by_cases h : x / 2 ^ i % 2 = 1
    · rw [if_pos h, Nat.testBit_two_pow]; simp [hj]
    · rw [if_neg h]; simp [hj]

theorem od_bits {id : Nat} (hid : id < 1024) (b : Bool) :
    (id * 64 + (if b then 0 else 32) + 31) < 65536 ∧ (id * 64 + (if b then 0 else 32) + 31) >>> 6 = id ∧
    (id * 64 + (if b then 0 else 32) + 31) &&& 0x20 = if b then 0 else 32 := by
  rw [show (0x20 : Nat) = 2 ^ 5 from rfl, and_bit, Nat.shiftRight_eq_div_pow]
  cases b
  · simp only [Bool.false_eq_true, if_false]
    exact ⟨by omega, by omega, by rw [if_pos (by omega)]⟩
  · simp only [if_true]
    exact ⟨by omega, by omega, by rw [if_neg (by omega)]⟩

theorem iod_bits {id : Nat} (hid : id < 1024) (b c : Bool) :
    (id * 64 + (if b then 0 else 32) + (if c then 0 else 16) + 15) < 65536 ∧
    (id * 64 + (if b then 0 else 32) + (if c then 0 else 16) + 15) >>> 6 = id ∧
    (id * 64 + (if b then 0 else 32) + (if c then 0 else 16) + 15) &&& 0x20 = (if b then 0 else 32) ∧
    (id * 64 + (if b then 0 else 32) + (if c then 0 else 16) + 15) &&& 0x10 = (if c then 0 else 16) := by
  rw [show (0x20 : Nat) = 2 ^ 5 from rfl, show (0x10 : Nat) = 2 ^ 4 from rfl, and_bit, and_bit, Nat.shiftRight_eq_div_pow]
  cases b <;> cases c <;> simp only [Bool.false_eq_true, if_false, if_true]
  · exact ⟨by omega, by omega, by rw [if_pos (by omega)], by rw [if_pos (by omega)]⟩
  · exact ⟨by omega, by omega, by rw [if_pos (by omega)], by rw [if_neg (by omega)]⟩
  · exact ⟨by omega, by omega, by rw [if_neg (by omega)], by rw [if_pos (by omega)]⟩
  · exact ⟨by omega, by omega, by rw [if_neg (by omega)], by rw [if_neg (by omega)]⟩

/-! ## Where the descriptors go -/

theorem isOci_iff {t : Nat} : isOci t = true ↔ Oci t := by simp [isOci, Oci]

theorem od_fold_es (l : List Es) : ∀ d : Od, (l.map Item.es).foldl odInsert d = { d with es := d.es ++ l } := by
  induction l with
  | nil => intro d; simp
  | cons a l ih =>
    intro d
    rw [List.map_cons, List.foldl_cons, ih]
    simp [odInsert, odAdd]

theorem od_fold_inc (l : List Nat) : ∀ d : Od, (l.map Item.inc).foldl odInsert d = { d with inc := d.inc ++ l } := by
  induction l with
  | nil => intro d; simp
  | cons a l ih =>
    intro d
    rw [List.map_cons, List.foldl_cons, ih]
    simp [odInsert, odAdd]

theorem od_fold_ref (l : List Nat) : ∀ d : Od, (l.map Item.ref).foldl odInsert d = { d with ref := d.ref ++ l } := by
  induction l with
  | nil => intro d; simp
  | cons a l ih =>
    intro d
    rw [List.map_cons, List.foldl_cons, ih]
    simp [odInsert, odAdd]

theorem od_fold_oci (l : List Default) (h : ∀ x ∈ l, Oci x.tag) : ∀ d : Od,
    (l.map fun x => Item.child (.plain x)).foldl odInsert d = { d with oci := d.oci ++ l } := by
  induction l with
  | nil => intro d; simp
  | cons a l ih =>
    intro d
    have ha : isOci a.tag = true := isOci_iff.2 (h a (by simp))
    rw [List.map_cons, List.foldl_cons, ih fun x hx => h x (by simp [hx])]
    simp [odInsert, ha]

theorem od_fold_ptr (l : List Ptr) : ∀ d : Od,
    (l.map fun p => Item.child (.ptr p)).foldl odInsert d = { d with ptr := d.ptr ++ l } := by
  induction l with
  | nil => intro d; simp
  | cons a l ih =>
    intro d
    rw [List.map_cons, List.foldl_cons, ih]
    simp [odInsert, odAdd]

theorem odInsert_ext {i : Item} (h : OdExt i) (d : Od) : odInsert d i = { d with ext := d.ext ++ [i] } := by
  cases i with
  | child c =>
    cases c with
    | plain x =>
      have : ¬ isOci x.tag = true := fun e => h (isOci_iff.1 e)
      simp [odInsert, odAdd, this]
    | ptr p => exact h.elim
    | _ => rfl
  | _ => exact h.elim

theorem od_fold_ext (l : List Item) (h : ∀ i ∈ l, OdExt i) : ∀ d : Od,
    l.foldl odInsert d = { d with ext := d.ext ++ l } := by
  induction l with
  | nil => intro d; simp
  | cons a l ih =>
    intro d
    rw [List.foldl_cons, ih fun x hx => h x (by simp [hx]), odInsert_ext (h a (by simp))]
    simp

theorem od_fold {d : Od} (hd : OdOk d) : d.items.foldl odInsert ⟨0x01, d.id, d.url, [], [], [], [], [], []⟩ = readOd d := by
  unfold Od.items
  rw [List.foldl_append, od_fold_es, List.foldl_append, od_fold_inc, List.foldl_append, od_fold_ref, List.foldl_append,
    od_fold_oci _ hd.oci, List.foldl_append, od_fold_ptr, od_fold_ext _ hd.ext]
  rfl

theorem parsesAt_od {d : Od} (hd : OdOk d) (h : (odPayload d).length < 2 ^ 28) :
    ParsesAt (getOd (5 + (odPayload d).length)) 5 (odPayload d) (readOd d) := by
  obtain ⟨b1, b2, b3⟩ := od_bits hd.id (decide (d.url = []))
  simp only [decide_eq_true_eq] at b1 b2 b3
  have hlen : (odPayload d).length = 2 + (urlBytes d.url).length + (d.items.flatMap itemBytes).length := by
    simp only [odPayload, List.length_append, be_length]; omega
  generalize hs : 5 + (odPayload d).length = size
  unfold odPayload getOd
  refine ((parses_get16' b1).at _).bind ?_
  refine ParsesAt.bind (a := d.url) ?_ ?_
  · unfold getIf urlBytes
    rw [b3]
    by_cases hz : d.url = []
    · simp only [hz, if_true, ne_eq, not_true, if_false]; exact (parses_pure _).at _
    · simp only [hz, if_false]
      rw [if_pos (by omega)]
      exact ((parses_get8' hd.url).bind (parses_getBytes rfl)).at _
  · rw [b2]
    have := parsesAt_all (size := size) (k := 5 + (be 2 (d.id * 64 + (if d.url = [] then 0 else 32) + 31)).length +
      (urlBytes d.url).length) (get := getItem) (add := odInsert) (bytes := itemBytes) (v := fun i => i) (cs := d.items)
      (s := ⟨0x01, d.id, d.url, [], [], [], [], [], []⟩)
      (fun i hi => ⟨parses_item (hd.items i hi) (items_lt (by omega) hi), itemBytes_pos i⟩)
      (by rw [be_length]; omega)
    rw [List.map_id', od_fold hd] at this
    exact this

/-! ## Initial object descriptor -/

theorem iod_flat (d : Iod) : d.items.flatMap itemBytes = d.es.flatMap esBytes ++ (d.inc.flatMap incBytes ++
    (d.oci.flatMap plainBytes ++ (d.ptr.flatMap ptrBytes ++ d.ext.flatMap itemBytes))) := by
  simp only [Iod.items, List.flatMap_append]
  rw [flat_map d.es .es esBytes fun _ => rfl, flat_map d.inc .inc incBytes fun _ => rfl,
    flat_map d.oci _ plainBytes fun _ => rfl, flat_map d.ptr _ ptrBytes fun _ => rfl]

theorem iod_ext_le (d : Iod) : (d.ext.flatMap itemBytes).length ≤ (d.items.flatMap itemBytes).length := by
  rw [iod_flat]
  simp only [List.length_append]
  omega

theorem written_iod {d : Iod} (hd : IodOk d) (h : (iodPayload d).length < 2 ^ 28) :
    Written iodSize putIod iodBytes d := by
  have hword : (w16(d.id <<< 6) ||| (if d.url.length ≠ 0 then 1 <<< 5 else 0) ||| (if d.inline ≠ 0 then 1 <<< 4 else 0) |||
    0xF) = d.id * 64 + (if d.url = [] then 0 else 32) + (if d.inline = 0 then 0 else 16) + 15 := by
    rw [iod_word hd.id]
    simp only [ne_eq, List.length_eq_zero_iff, ite_not]
  by_cases hu : d.url = []
  · have hit : ∀ i ∈ d.items, Written itemSize putItem itemBytes i := by
      intro i hi
      refine written_item (hd.items i hi) ?_
      have := mem_flat_le (f := itemBytes) hi
      simp only [iodPayload, if_pos hu, List.length_append] at h
      omega
    have w1 : ∀ e ∈ d.es, Written esSize putEs esBytes e := fun e he => hit (.es e) (by simp [Iod.items, he])
    have w4 : ∀ x ∈ d.oci, Written defaultSize putDefault plainBytes x :=
      fun x hx => hit (.child (.plain x)) (by simp [Iod.items, hx])
    have w6 : ∀ i ∈ d.ext, Written itemSize putItem itemBytes i := fun i hi => hit i (by simp [Iod.items, hi])
    have hsz : iodSize d = 5 + (iodPayload d).length := by
      have hpl : (iodPayload d).length = 2 + 5 + (d.items.flatMap itemBytes).length := by
        simp only [iodPayload, iodHead, if_pos hu, profileBytes, List.length_append, be_length]; omega
      rw [iod_flat] at hpl
      simp only [List.length_append] at hpl
      unfold iodSize
      rw [if_neg (by simp [hu]), size_all w1, size_all fun a _ => written_inc a, size_all w4,
        size_all (put := putPtr) (bytes := ptrBytes) fun a _ => run_ptr a, size_all w6]
      omega
    have hl : (iodBytes d).length = iodSize d := by unfold iodBytes; rw [descr_length (by omega), hsz]
    refine ⟨?_, hl⟩
    refine EmitsFull.runW ?_ hl (by omega)
    unfold putIod iodBytes
    rw [hsz, hword, if_neg (show ¬ d.url.length ≠ 0 by simp [hu])]
    have h3 := (emits_header d.tag (iodPayload d).length (by omega)).then
      ((emits_put16 (d.id * 64 + (if d.url = [] then 0 else 32) + (if d.inline = 0 then 0 else 16) + 15)).then
      (((emits_put8 d.profiles.od).seq ((emits_put8 d.profiles.scene).seq ((emits_put8 d.profiles.audio).seq
        ((emits_put8 d.profiles.visual).seq ((emits_put8 d.profiles.graphics).seq ((emits_all w1).seq
        ((emits_all (l := d.inc) fun a _ => written_inc a).seq ((emits_all w4).seq (emits_all (l := d.ptr) fun a _ => run_ptr a))))))))).then
        (emits_all w6).thenAssert))
    refine cast (congrArg _ ?_) h3
    rw [Nat.mod_eq_of_lt (by omega)]
    unfold descr
    have e : iodPayload d = iodHead d ++ (profileBytes d.profiles ++ d.items.flatMap itemBytes) := by
      unfold iodPayload; rw [if_pos hu]
    rw [iod_flat] at e
    generalize lengthBytes 4 (iodPayload d).length = lb
    rw [e]
    simp only [iodHead, profileBytes, List.append_assoc]
  · have w6 : ∀ i ∈ d.ext, Written itemSize putItem itemBytes i := by
      intro i hi
      refine written_item (hd.items i (by simp [Iod.items, hi])) ?_
      have := mem_flat_le (f := itemBytes) hi
      simp only [iodPayload, if_neg hu, List.length_append] at h
      omega
    have hul : d.url.length ≠ 0 := by simpa using hu
    have hsz : iodSize d = 5 + (iodPayload d).length := by
      have hpl : (iodPayload d).length = 2 + (urlBytes d.url).length + (d.ext.flatMap itemBytes).length := by
        simp only [iodPayload, iodHead, if_neg hu, List.length_append, be_length]; omega
      rw [url_length, if_pos hul] at hpl
      unfold iodSize
      rw [if_pos hul, size_all w6]
      omega
    have hl : (iodBytes d).length = iodSize d := by unfold iodBytes; rw [descr_length (by omega), hsz]
    refine ⟨?_, hl⟩
    refine EmitsFull.runW ?_ hl (by omega)
    unfold putIod iodBytes
    rw [hsz, hword, if_pos hul]
    have h3 := (emits_header d.tag (iodPayload d).length (by omega)).then
      ((emits_put16 (d.id * 64 + (if d.url = [] then 0 else 32) + (if d.inline = 0 then 0 else 16) + 15)).then
      (((emits_put8 d.url.length).seq (emits_bytes d.url)).then (emits_all w6).thenAssert))
    refine cast (congrArg _ ?_) h3
    rw [Nat.mod_eq_of_lt (by omega)]
    unfold descr
    have e : iodPayload d = iodHead d ++ (urlBytes d.url ++ d.ext.flatMap itemBytes) := by
      unfold iodPayload; rw [if_neg hu]
    generalize lengthBytes 4 (iodPayload d).length = lb
    rw [e]
    simp only [iodHead, urlBytes, if_neg hu, List.append_assoc]

theorem iod_fold_es (l : List Es) : ∀ d : Iod, (l.map Item.es).foldl iodInsert d = { d with es := d.es ++ l } := by
  induction l with
  | nil => intro d; simp
  | cons a l ih =>
    intro d
    rw [List.map_cons, List.foldl_cons, ih]
    simp [iodInsert, iodAdd]

theorem iod_fold_inc (l : List Nat) : ∀ d : Iod, (l.map Item.inc).foldl iodInsert d = { d with inc := d.inc ++ l } := by
  induction l with
  | nil => intro d; simp
  | cons a l ih =>
    intro d
    rw [List.map_cons, List.foldl_cons, ih]
    simp [iodInsert, iodAdd]

theorem iod_fold_oci (l : List Default) (h : ∀ x ∈ l, Oci x.tag) : ∀ d : Iod,
    (l.map fun x => Item.child (.plain x)).foldl iodInsert d = { d with oci := d.oci ++ l } := by
  induction l with
  | nil => intro d; simp
  | cons a l ih =>
    intro d
    have ha : isOci a.tag = true := isOci_iff.2 (h a (by simp))
    rw [List.map_cons, List.foldl_cons, ih fun x hx => h x (by simp [hx])]
    simp [iodInsert, ha]

theorem iod_fold_ptr (l : List Ptr) : ∀ d : Iod,
    (l.map fun p => Item.child (.ptr p)).foldl iodInsert d = { d with ptr := d.ptr ++ l } := by
  induction l with
  | nil => intro d; simp
  | cons a l ih =>
    intro d
    rw [List.map_cons, List.foldl_cons, ih]
    simp [iodInsert, iodAdd]

theorem iodInsert_ext {i : Item} (h : IodExt i) (d : Iod) : iodInsert d i = { d with ext := d.ext ++ [i] } := by
  cases i with
  | child c =>
    cases c with
    | plain x =>
      have : ¬ isOci x.tag = true := fun e => h (isOci_iff.1 e)
      simp [iodInsert, iodAdd, this]
    | ptr p => exact h.elim
    | _ => rfl
  | ref j => rfl
  | es e => exact h.elim
  | inc j => exact h.elim

theorem iod_fold_ext (l : List Item) (h : ∀ i ∈ l, IodExt i) : ∀ d : Iod,
    l.foldl iodInsert d = { d with ext := d.ext ++ l } := by
  induction l with
  | nil => intro d; simp
  | cons a l ih =>
    intro d
    rw [List.foldl_cons, ih fun x hx => h x (by simp [hx]), iodInsert_ext (h a (by simp))]
    simp

theorem iod_fold {d : Iod} (hd : IodOk d) :
    d.items.foldl iodInsert ⟨0x10, d.id, d.inline, d.url, d.profiles, [], [], [], [], []⟩ = { d with tag := 0x10 } := by
  unfold Iod.items
  rw [List.foldl_append, iod_fold_es, List.foldl_append, iod_fold_inc, List.foldl_append,
    iod_fold_oci _ hd.oci, List.foldl_append, iod_fold_ptr, iod_fold_ext _ hd.ext]
  rfl

theorem parsesAt_iod {d : Iod} (hd : IodOk d) (h : (iodPayload d).length < 2 ^ 28) :
    ParsesAt (getIod (5 + (iodPayload d).length)) 5 (iodPayload d) (readIod d) := by
  obtain ⟨b1, b2, b3, b4⟩ := iod_bits hd.id (decide (d.url = [])) (decide (d.inline = 0))
  simp only [decide_eq_true_eq] at b1 b2 b3 b4
  have hin : (if (if d.inline = 0 then 0 else 16) ≠ 0 then 1 else 0) = d.inline := by
    have := hd.inline
    by_cases hz : d.inline = 0
    · simp [hz]
    · simp [hz]; omega
  by_cases hu : d.url = []
  · have hlen : (iodPayload d).length = 7 + (d.items.flatMap itemBytes).length := by
      simp only [iodPayload, iodHead, if_pos hu, profileBytes, List.length_append, be_length]; omega
    generalize hs : 5 + (iodPayload d).length = size
    unfold iodPayload iodHead getIod
    refine ((parses_get16' b1).at _).bind ?_
    rw [b2, b3, b4, hin, if_pos hu, if_pos hu]
    refine cast (congrArg (fun bs => ParsesAt _ _ bs _) (List.nil_append _))
      (ParsesAt.bind (a := ([] : Bytes)) (x := []) (y := profileBytes d.profiles ++ d.items.flatMap itemBytes) ?_ ?_)
    · unfold getIf
      rw [if_neg (by simp)]
      exact (parses_pure _).at _
    refine ParsesAt.bind (a := d.profiles) ?_ ?_
    · unfold getIf profileBytes getProfiles
      rw [if_pos (by simp)]
      obtain ⟨p1, p2, p3, p4, p5⟩ := hd.profiles
      refine Parses.at ?_ _
      exact (parses_get8' p1).bind ((parses_get8' p2).bind ((parses_get8' p3).bind ((parses_get8' p4).bind
        ((parses_get8' p5).bind_nil (parses_pure _)))))
    · have := parsesAt_all (size := size) (k := 12) (get := getItem) (add := iodInsert) (bytes := itemBytes) (v := fun i => i)
        (cs := d.items) (s := ⟨0x10, d.id, d.inline, [], d.profiles, [], [], [], [], []⟩)
        (fun i hi => ⟨parses_item (hd.items i hi) (items_lt (by omega) hi), itemBytes_pos i⟩) (by omega)
      rw [← hu, List.map_id', iod_fold hd] at this
      unfold readIod
      rw [if_pos hu]
      refine cast ?_ this
      simp only [profileBytes, List.length_append, be_length, List.length_nil, hu]
  · have hlen : (iodPayload d).length = 2 + (urlBytes d.url).length + (d.ext.flatMap itemBytes).length := by
      simp only [iodPayload, iodHead, if_neg hu, List.length_append, be_length]; omega
    generalize hs : 5 + (iodPayload d).length = size
    unfold iodPayload iodHead getIod
    refine ((parses_get16' b1).at _).bind ?_
    rw [b2, b3, b4, hin, if_neg hu, if_neg hu]
    refine ParsesAt.bind (a := d.url) ?_ ?_
    · unfold getIf urlBytes
      rw [if_pos (by omega), if_neg hu]
      exact ((parses_get8' hd.url).bind (parses_getBytes rfl)).at _
    refine ParsesAt.bind (a := (⟨0, 0, 0, 0, 0⟩ : Profiles)) (x := []) ?_ ?_
    · unfold getIf
      rw [if_neg (by simp)]
      exact (parses_pure _).at _
    · have := parsesAt_all (size := size) (k := 7 + (urlBytes d.url).length) (get := getItem) (add := iodInsert)
        (bytes := itemBytes) (v := fun i => i) (cs := d.ext)
        (s := ⟨0x10, d.id, d.inline, d.url, ⟨0, 0, 0, 0, 0⟩, [], [], [], [], []⟩)
        (fun i hi => ⟨parses_item (hd.items i (by simp [Iod.items, hi])) (items_lt (by omega) hi), itemBytes_pos i⟩)
        (by omega)
      rw [List.map_id', iod_fold_ext _ hd.ext] at this
      unfold readIod
      rw [if_neg hu]
      refine cast ?_ this
      simp only [be_length, List.length_nil, List.nil_append]
      rfl

/-! ## Any descriptor -/

def Any.tag : Any → Nat
  | .od d => d.tag
  | .iod d => d.tag
  | .item i => i.tag

def Any.payload : Any → Bytes
  | .od d => odPayload d
  | .iod d => iodPayload d
  | .item i => i.payload

theorem anyBytes_eq (a : Any) : anyBytes a = descr 4 a.tag a.payload := by
  cases a with
  | item i => exact itemBytes_eq i
  | _ => rfl

theorem any_payload_lt {a : Any} (h : (anyBytes a).length < 2 ^ 28) : a.payload.length < 2 ^ 28 := by
  rw [anyBytes_eq, descr_length (by omega)] at h
  omega

theorem anyBytes_pos (a : Any) : 1 ≤ (anyBytes a).length := by
  rw [anyBytes_eq, descr_length (by omega)]
  omega

theorem any_tag_lt {a : Any} (ha : AnyOk a) : a.tag < 256 := by
  cases a with
  | od d => have := ha.tag; simp only [Any.tag]; omega
  | iod d => have := ha.tag; simp only [Any.tag]; omega
  | item i => exact (tag_own ha).1

theorem written_any {a : Any} (ha : AnyOk a) (h : (a.payload).length < 2 ^ 28) : Written anySize putAny anyBytes a := by
  cases a with
  | od d => exact written_od ha h
  | iod d => exact written_iod ha h
  | item i =>
    cases i with
    | es e => exact run_es ha h
    | inc id => exact written_inc id
    | ref i => exact written_ref i
    | child c =>
      cases c with
      | dec d => exact run_dec ha h
      | sl c => exact run_sl ha
      | ptr p => exact run_ptr p
      | plain d => exact run_plain h

theorem parsesAt_any {a : Any} (ha : AnyOk a) (h : a.payload.length < 2 ^ 28) :
    ParsesAt (getAny a.tag (5 + a.payload.length)) 5 a.payload (readAny a) := by
  cases a with
  | od d =>
    unfold getAny
    rw [if_pos (show (Any.od d).tag = 1 ∨ (Any.od d).tag = 0x11 from ha.tag)]
    exact (parsesAt_od ha h).bind_nil ((parses_pure _).at _)
  | iod d =>
    have ht := ha.tag
    have hn : ¬ ((Any.iod d).tag = 1 ∨ (Any.iod d).tag = 0x11) := by simp only [Any.tag]; omega
    unfold getAny
    rw [if_neg hn, if_pos (show (Any.iod d).tag = 2 ∨ (Any.iod d).tag = 0x10 from ht)]
    exact (parsesAt_iod ha h).bind_nil ((parses_pure _).at _)
  | item i =>
    obtain ⟨_, t1, t2, t3, t4⟩ := tag_own ha
    have h1 : ¬ ((Any.item i).tag = 1 ∨ (Any.item i).tag = 0x11) := by simp only [Any.tag]; omega
    have h2 : ¬ ((Any.item i).tag = 2 ∨ (Any.item i).tag = 0x10) := by simp only [Any.tag]; omega
    unfold getAny
    rw [if_neg h1, if_neg h2]
    exact (parsesAt_item ha h).bind_nil ((parses_pure _).at _)

theorem parses_any {a : Any} (ha : AnyOk a) (h : a.payload.length < 2 ^ 28) :
    Parses (getDesc getAny) (anyBytes a) (readAny a) := by
  rw [anyBytes_eq]
  exact parses_desc (by omega) (by omega) (by omega) (any_tag_lt ha) (parsesAt_any ha h)

/-! ## Commands -/

/-- The descriptors inside a command. -/
def cmdItems : Cmd → List Any
  | .odUpdate ods ext => ods.map .od ++ ext
  | .esUpdate _ es ref ext => es.map (fun e => .item (.es e)) ++ (ref.map (fun i => .item (.ref i)) ++ ext)
  | .plain _ => []

theorem flat_any {α : Type} (l : List α) (f : α → Any) (g : α → Bytes) (h : ∀ a, anyBytes (f a) = g a) :
    (l.map f).flatMap anyBytes = l.flatMap g := by
  rw [List.flatMap_map]
  exact congrArg (List.flatMap · l) (funext h)

theorem cmdItems_ok {c : Cmd} (hc : CmdOk c) : ∀ a ∈ cmdItems c, AnyOk a := by
  intro a ha
  cases c with
  | odUpdate ods ext =>
    rcases List.mem_append.1 ha with h | h
    · obtain ⟨d, hd, rfl⟩ := List.mem_map.1 h
      exact hc.1 d hd
    · exact (hc.2 a h).1
  | esUpdate id es ref ext =>
    obtain ⟨_, h1, h2, h3⟩ := hc
    simp only [cmdItems, List.mem_append, List.mem_map] at ha
    rcases ha with ⟨e, he, rfl⟩ | ⟨i, hi, rfl⟩ | h
    · exact h1 e he
    · exact h2 i hi
    · exact (h3 a h).1
  | plain d => cases ha

theorem any_written_mem {l : List Any} (h : ∀ a ∈ l, AnyOk a) (hl : (l.flatMap anyBytes).length < 2 ^ 28) :
    ∀ a ∈ l, Written anySize putAny anyBytes a ∧ Parses (getDesc getAny) (anyBytes a) (readAny a) := by
  intro a ha
  have hp : a.payload.length < 2 ^ 28 := by
    have := mem_flat_le (f := anyBytes) ha
    exact any_payload_lt (by omega)
  exact ⟨written_any (h a ha) hp, parses_any (h a ha) hp⟩

theorem cmd_flat : (ods : List Od) → (ext : List Any) →
    (cmdItems (.odUpdate ods ext)).flatMap anyBytes = ods.flatMap odBytes ++ ext.flatMap anyBytes := by
  intro ods ext
  simp only [cmdItems, List.flatMap_append]
  rw [flat_any ods .od odBytes fun _ => rfl]

theorem cmd_flat' (id : Nat) (es : List Es) (ref : List Nat) (ext : List Any) :
    (cmdItems (.esUpdate id es ref ext)).flatMap anyBytes =
      es.flatMap esBytes ++ (ref.flatMap refBytes ++ ext.flatMap anyBytes) := by
  simp only [cmdItems, List.flatMap_append]
  rw [flat_any es _ esBytes fun _ => rfl, flat_any ref _ refBytes fun _ => rfl]

theorem written_cmd {c : Cmd} (hc : CmdOk c) (h : (cmdPayload c).length < 2 ^ 28) : Written cmdSize putCmd cmdBytes c := by
  cases c with
  | odUpdate ods ext =>
    have hl : ((cmdItems (.odUpdate ods ext)).flatMap anyBytes).length < 2 ^ 28 := by rw [cmd_flat]; exact h
    have hw := fun a ha => (any_written_mem (cmdItems_ok hc) hl a ha).1
    have w1 : ∀ d ∈ ods, Written odSize putOd odBytes d := fun d hd => hw (.od d) (by simp [cmdItems, hd])
    have w2 : ∀ a ∈ ext, Written anySize putAny anyBytes a := fun a ha => hw a (by simp [cmdItems, ha])
    have hsz : cmdSize (.odUpdate ods ext) = 5 + (cmdPayload (.odUpdate ods ext)).length := by
      simp only [cmdPayload, List.length_append] at h ⊢
      unfold cmdSize
      simp only
      rw [size_all w1, size_all w2]
      omega
    have hlen : (cmdBytes (.odUpdate ods ext)).length = cmdSize (.odUpdate ods ext) := by
      unfold cmdBytes; rw [descr_length (by omega), hsz]
    refine ⟨?_, hlen⟩
    refine Emits.run_ok ?_ hlen (by omega)
    unfold putCmd
    simp only
    rw [hsz]
    exact emits_descr h ((emits_all w1).seq (emits_all w2))
  | esUpdate id es ref ext =>
    have hl : ((cmdItems (.esUpdate id es ref ext)).flatMap anyBytes).length < 2 ^ 28 := by
      rw [cmd_flat']
      simp only [cmdPayload, List.length_append] at h ⊢
      omega
    have hw := fun a ha => (any_written_mem (cmdItems_ok hc) hl a ha).1
    have w1 : ∀ e ∈ es, Written esSize putEs esBytes e := fun e he => hw (.item (.es e)) (by simp [cmdItems, he])
    have w2 : ∀ a ∈ ext, Written anySize putAny anyBytes a := fun a ha => hw a (by simp [cmdItems, ha])
    have hsz : cmdSize (.esUpdate id es ref ext) = 5 + (cmdPayload (.esUpdate id es ref ext)).length := by
      simp only [cmdPayload, List.length_append, be_length] at h ⊢
      unfold cmdSize
      simp only
      rw [size_all w1, size_all fun a _ => written_ref a, size_all w2]
      omega
    have hlen : (cmdBytes (.esUpdate id es ref ext)).length = cmdSize (.esUpdate id es ref ext) := by
      unfold cmdBytes; rw [descr_length (by omega), hsz]
    refine ⟨?_, hlen⟩
    refine Emits.run_ok ?_ hlen (by omega)
    unfold putCmd
    simp only
    rw [hsz, show w32(id <<< 6) = id * 64 by have := hc.1; rw [Nat.shiftLeft_eq]; omega]
    exact emits_descr h ((emits_put16 _).seq ((emits_all w1).seq ((emits_all fun a _ => written_ref a).seq (emits_all w2))))
  | plain d => exact run_plain h

theorem odUpdate_fold_od (l : List Od) : ∀ s : List Od × List Any,
    (l.map Any.od).foldl odUpdateAdd s = (s.1 ++ l, s.2) := by
  induction l with
  | nil => intro s; simp
  | cons a l ih =>
    intro s
    rw [List.map_cons, List.foldl_cons, ih]
    simp [odUpdateAdd]

theorem odUpdate_fold_ext (l : List Any) (h : ∀ a ∈ l, ∀ d, a ≠ .od d) : ∀ s : List Od × List Any,
    l.foldl odUpdateAdd s = (s.1, s.2 ++ l) := by
  induction l with
  | nil => intro s; simp
  | cons a l ih =>
    intro s
    rw [List.foldl_cons, ih fun x hx => h x (by simp [hx])]
    have ha := h a (by simp)
    cases a with
    | od d => exact absurd rfl (ha d)
    | iod d => simp [odUpdateAdd]
    | item i => simp [odUpdateAdd]

theorem esUpdate_fold_es (l : List Es) : ∀ s : List Es × List Nat × List Any,
    (l.map fun e => Any.item (.es e)).foldl esUpdateAdd s = (s.1 ++ l, s.2.1, s.2.2) := by
  induction l with
  | nil => intro s; simp
  | cons a l ih =>
    intro s
    rw [List.map_cons, List.foldl_cons, ih]
    simp [esUpdateAdd]

theorem esUpdate_fold_ref (l : List Nat) : ∀ s : List Es × List Nat × List Any,
    (l.map fun e => Any.item (.ref e)).foldl esUpdateAdd s = (s.1, s.2.1 ++ l, s.2.2) := by
  induction l with
  | nil => intro s; simp
  | cons a l ih =>
    intro s
    rw [List.map_cons, List.foldl_cons, ih]
    simp [esUpdateAdd]

theorem esUpdate_fold_ext (l : List Any) (h : ∀ a ∈ l, (∀ e, a ≠ .item (.es e)) ∧ ∀ i, a ≠ .item (.ref i)) :
    ∀ s : List Es × List Nat × List Any, l.foldl esUpdateAdd s = (s.1, s.2.1, s.2.2 ++ l) := by
  induction l with
  | nil => intro s; simp
  | cons a l ih =>
    intro s
    rw [List.foldl_cons, ih fun x hx => h x (by simp [hx])]
    have ha := h a (by simp)
    cases a with
    | od d => simp [esUpdateAdd]
    | iod d => simp [esUpdateAdd]
    | item i =>
      cases i with
      | es e => exact absurd rfl (ha.1 e)
      | ref e => exact absurd rfl (ha.2 e)
      | inc e => simp [esUpdateAdd]
      | child e => simp [esUpdateAdd]

theorem readAny_od {a : Any} (h : ∀ d, a ≠ .od d) : ∀ d, readAny a ≠ .od d := by
  intro d
  cases a with
  | od x => exact absurd rfl (h x)
  | iod x => simp [readAny]
  | item x => simp [readAny]

theorem readAny_item {a : Any} {i : Item} (h : a ≠ .item i) : readAny a ≠ .item i := by
  cases a with
  | od x => simp [readAny]
  | iod x => simp [readAny]
  | item x => exact h

theorem parsesAt_cmd {c : Cmd} (hc : CmdOk c) (h : (cmdPayload c).length < 2 ^ 28) :
    ParsesAt (getCmd (cmdTag c) (5 + (cmdPayload c).length)) 5 (cmdPayload c) (readCmd c) := by
  cases c with
  | odUpdate ods ext =>
    have hl : ((cmdItems (.odUpdate ods ext)).flatMap anyBytes).length < 2 ^ 28 := by rw [cmd_flat]; exact h
    have hp := fun a ha => (any_written_mem (cmdItems_ok hc) hl a ha).2
    have e : cmdPayload (.odUpdate ods ext) = (cmdItems (.odUpdate ods ext)).flatMap anyBytes := (cmd_flat ods ext).symm
    unfold getCmd cmdTag
    simp only
    rw [if_pos (by decide), e]
    refine ParsesAt.bind_nil (parsesAt_all (bytes := anyBytes) (v := readAny) (cs := cmdItems (.odUpdate ods ext))
      (fun a ha => ⟨hp a ha, anyBytes_pos a⟩) rfl) ?_
    have ef : ((cmdItems (.odUpdate ods ext)).map readAny).foldl odUpdateAdd ([], []) = (ods.map readOd, ext.map readAny) := by
      have e1 : (cmdItems (.odUpdate ods ext)).map readAny = (ods.map readOd).map Any.od ++ ext.map readAny := by
        simp only [cmdItems, List.map_append, List.map_map]
        rfl
      rw [e1, List.foldl_append, odUpdate_fold_od, odUpdate_fold_ext]
      · simp
      · intro a ha
        obtain ⟨b, hb, rfl⟩ := List.mem_map.1 ha
        exact readAny_od (hc.2 b hb).2
    rw [ef]
    exact (parses_pure _).at _
  | esUpdate id es ref ext =>
    have hl : ((cmdItems (.esUpdate id es ref ext)).flatMap anyBytes).length < 2 ^ 28 := by
      rw [cmd_flat']
      simp only [cmdPayload, List.length_append] at h ⊢
      omega
    have hp := fun a ha => (any_written_mem (cmdItems_ok hc) hl a ha).2
    have e : cmdPayload (.esUpdate id es ref ext) = be 2 (id * 64) ++ (cmdItems (.esUpdate id es ref ext)).flatMap anyBytes := by
      rw [cmd_flat']; rfl
    obtain ⟨h1, _, _, h3⟩ := hc
    unfold getCmd cmdTag
    simp only
    rw [if_neg (by decide), if_pos (by decide), e]
    refine ((parses_get16' (show id * 64 < 65536 by omega)).at _).bind ?_
    refine ParsesAt.bind_nil (parsesAt_all (bytes := anyBytes) (v := readAny) (cs := cmdItems (.esUpdate id es ref ext))
      (fun a ha => ⟨hp a ha, anyBytes_pos a⟩) (by rw [List.length_append]; omega)) ?_
    have ef : ((cmdItems (.esUpdate id es ref ext)).map readAny).foldl esUpdateAdd ([], [], []) =
        (es, ref, ext.map readAny) := by
      have e1 : (cmdItems (.esUpdate id es ref ext)).map readAny =
          es.map (fun e => Any.item (.es e)) ++ (ref.map (fun i => Any.item (.ref i)) ++ ext.map readAny) := by
        simp only [cmdItems, List.map_append, List.map_map]
        rfl
      rw [e1, List.foldl_append, esUpdate_fold_es, List.foldl_append, esUpdate_fold_ref, esUpdate_fold_ext]
      · simp
      · intro a ha
        obtain ⟨b, hb, rfl⟩ := List.mem_map.1 ha
        exact ⟨fun e => readAny_item ((h3 b hb).2.1 e), fun i => readAny_item ((h3 b hb).2.2 i)⟩
    rw [ef, show (id * 64) >>> 6 = id by rw [Nat.shiftRight_eq_div_pow]; omega]
    exact (parses_pure _).at _
  | plain d =>
    obtain ⟨_, h1, h3, h9⟩ := hc
    simp only [cmdPayload] at h ⊢
    unfold getCmd cmdTag
    simp only
    rw [if_neg h1, if_neg h3, if_neg h9]
    exact (parsesAt_default (k := 4) (by omega)).bind_nil ((parses_pure _).at _)

theorem cmdTag_lt {c : Cmd} (hc : CmdOk c) : cmdTag c < 256 := by
  cases c with
  | odUpdate ods ext => simp [cmdTag]
  | esUpdate id es ref ext => simp [cmdTag]
  | plain d => exact hc.1

theorem parses_cmd {c : Cmd} (hc : CmdOk c) (h : (cmdPayload c).length < 2 ^ 28) :
    Parses parseCommand (cmdBytes c) (readCmd c) :=
  parses_desc (by omega) (by omega) (by omega) (cmdTag_lt hc) (parsesAt_cmd hc h)

end Verif.Od
