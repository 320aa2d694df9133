import Verif.Spec.UserFile
import Verif.Lemmas.Auto

/-!
# C102: user data through files
-/

namespace Verif.UserData

/-! ## Questions -/

theorem answers (l : List Record) (t : Nat) (ht : t ≠ 0) : Answers l t (items l t) := by
  unfold Answers entryCount item foreign items
  rw [if_neg ht]
  cases hr : find l t with
  | none => simp
  | some r =>
    have hty := find_type hr
    simp only
    refine ⟨trivial, ?_, ?_⟩
    · intro k d hk
      rw [if_neg (by omega), if_neg (by omega), Nat.add_sub_cancel, hk, hty]
      exact ⟨rfl, rfl⟩
    · intro k hk
      by_cases h0 : k = 0
      · rw [if_pos (.inr h0), if_pos (.inr h0)]
        exact ⟨rfl, rfl⟩
      · rw [if_neg (by omega), if_neg (by omega), List.getElem?_eq_none (by omega)]
        exact ⟨rfl, rfl⟩

/-! ## Reading the members -/

/-- Records without the empty ones. -/
def filled (l : List Record) : List Record := l.filter fun r => !r.items.isEmpty

theorem find_append_none {a b : List Record} {t : Nat} (h : t ∉ a.map (·.type)) : find (a ++ b) t = find b t := by
  have := find_none_iff.2 h
  unfold find at this ⊢
  rw [List.find?_append, this]
  rfl

theorem update_append {a b : List Record} {t : Nat} {f : Record → Record} (h : t ∉ a.map (·.type)) :
    update t f (a ++ b) = a ++ update t f b := by
  induction a with
  | nil => rfl
  | cons r a ih =>
    simp only [List.map_cons, List.mem_cons, not_or] at h
    simp only [List.cons_append, update]
    rw [if_neg fun e => h.1 e.symm, ih h.2]

theorem addAtom_more {a : List Record} {t : Nat} (h : t ∉ a.map (·.type)) (ds : List Bytes) : ∀ xs : List Bytes,
    (ds.map fun d => (t, d)).foldl addAtom (a ++ [⟨t, xs⟩]) = a ++ [⟨t, xs ++ ds⟩] := by
  induction ds with
  | nil => simp
  | cons d ds ih =>
    intro xs
    simp only [List.map_cons, List.foldl_cons]
    have : addAtom (a ++ [⟨t, xs⟩]) (t, d) = a ++ [⟨t, xs ++ [d]⟩] := by
      unfold addAtom
      simp only
      rw [find_append_none h, update_append h]
      simp [find, update]
    rw [this, ih]
    simp

theorem addAtom_all (rs : List Record) : ∀ acc : List Record, (rs.map (·.type)).Nodup →
    (∀ r ∈ rs, r.type ∉ acc.map (·.type)) → (members rs).foldl addAtom acc = acc ++ filled rs := by
  induction rs with
  | nil => simp [members, filled]
  | cons r rs ih =>
    intro acc hn hd
    obtain ⟨t, ds⟩ := r
    rw [List.map_cons, List.nodup_cons] at hn
    have hm : members (⟨t, ds⟩ :: rs) = (ds.map fun d => (t, d)) ++ members rs := by simp [members]
    rw [hm, List.foldl_append]
    have ha : t ∉ acc.map (·.type) := hd ⟨t, ds⟩ (by simp)
    cases ds with
    | nil =>
      simp only [List.map_nil, List.foldl_nil]
      rw [ih acc hn.2 fun x hx => hd x (by simp [hx])]
      simp [filled]
    | cons d ds =>
      simp only [List.map_cons, List.foldl_cons]
      have : addAtom acc (t, d) = acc ++ [⟨t, [d]⟩] := by
        unfold addAtom
        simp only
        rw [find_none_iff.2 ha]
      rw [this, addAtom_more ha, ih _ hn.2]
      · simp [filled]
      · intro x hx
        have h1 := hd x (by simp [hx])
        simp only [List.map_append, List.map_cons, List.map_nil, List.mem_append, List.mem_singleton, not_or]
        refine ⟨h1, fun e => hn.1 ?_⟩
        exact List.mem_map.2 ⟨x, hx, e⟩

theorem items_filled (l : List Record) (hn : (l.map (·.type)).Nodup) (t : Nat) : items (filled l) t = items l t := by
  induction l with
  | nil => rfl
  | cons r l ih =>
    rw [List.map_cons, List.nodup_cons] at hn
    have ih := ih hn.2
    unfold items find filled at ih ⊢
    rw [List.filter_cons]
    by_cases he : r.items = []
    · simp only [he, List.isEmpty_nil, Bool.not_true, Bool.false_eq_true, if_false]
      rw [ih, List.find?_cons]
      by_cases ht : r.type = t
      · have : l.find? (fun r => r.type == t) = none := by
          rw [List.find?_eq_none]
          intro x hx
          simp only [beq_iff_eq]
          intro e
          exact hn.1 (List.mem_map.2 ⟨x, hx, e.trans ht.symm⟩)
        simp [ht, this, he]
      · simp [beq_eq_false_iff_ne.2 ht]
    · have : r.items.isEmpty = false := by simpa using he
      simp only [this, Bool.not_false, if_true, List.find?_cons]
      by_cases ht : r.type = t
      · simp [ht]
      · simp only [beq_eq_false_iff_ne.2 ht]
        exact ih

/-! ## The invariant -/

def weight (l : List Record) : Nat := ((members l).map fun m => 8 + m.2.length).sum

theorem members_append (a b : List Record) : members (a ++ b) = members a ++ members b := by simp [members]

theorem weight_append (a b : List Record) : weight (a ++ b) = weight a + weight b := by
  simp [weight, members_append]

theorem weight_cons (r : Record) (l : List Record) : weight (r :: l) = (r.items.map fun d => 8 + d.length).sum + weight l := by
  simp [weight, members, Function.comp_def]

theorem weight_update (l : List Record) (t : Nat) (f : Record → Record) (n : Nat)
    (hf : ∀ r, ((f r).items.map fun d => 8 + d.length).sum ≤ (r.items.map fun d => 8 + d.length).sum + n) :
    weight (update t f l) ≤ weight l + n := by
  induction l with
  | nil => simp [update, weight, members]
  | cons r l ih =>
    unfold update
    split
    · rw [weight_cons, weight_cons]
      have := hf r
      omega
    · rw [weight_cons, weight_cons]
      omega

theorem sum_eraseIdx (ds : List Bytes) (k : Nat) :
    ((ds.eraseIdx k).map fun d => 8 + d.length).sum ≤ (ds.map fun d => 8 + d.length).sum := by
  induction ds generalizing k with
  | nil => simp
  | cons d ds ih =>
    cases k with
    | zero => simp
    | succ k => simp only [List.eraseIdx_cons_succ, List.map_cons, List.sum_cons]; have := ih k; omega

theorem weight_after (l : List Record) (o : Op) : weight (after l o) ≤ weight l + cost o := by
  cases o with
  | add t d =>
    simp only [after, add, cost]
    by_cases ht : t = 0
    · simp [ht]
    · simp only [ht, if_false]
      cases hf : find l t with
      | none =>
        simp only
        rw [weight_append, weight_cons]
        simp [weight, members]
      | some r =>
        simp only
        exact weight_update l t _ (8 + d.length) fun r => by simp
  | delete t k =>
    simp only [after, delete, cost]
    by_cases h0 : t = 0 ∨ k = 0
    · simp [h0]
    · simp only [h0, if_false]
      cases hf : find l t with
      | none => simp
      | some r =>
        simp only
        by_cases hk : k - 1 ≥ r.items.length
        · simp [hk]
        · simp only [hk, if_false]
          exact weight_update l t _ 0 fun r => by have := sum_eraseIdx r.items (k - 1); simpa using this

theorem weight_filled (l : List Record) : weight (filled l) = weight l := by
  induction l with
  | nil => rfl
  | cons r l ih =>
    unfold filled at ih ⊢
    rw [List.filter_cons, weight_cons]
    by_cases he : r.items = []
    · simp [he, ih]
    · have : r.items.isEmpty = false := by simpa using he
      simp only [this, Bool.not_false, if_true, weight_cons, ih]

/-- What holds of the user data: distinct types for user data, and data that fits. -/
structure Sound (other : Nat → Bool) (l : List Record) (n : Nat) : Prop where
  nodup : (l.map (·.type)).Nodup
  free : ∀ r ∈ l, Free other r.type ∧ r.type ≠ 0
  weight : weight l ≤ n

theorem Sound.op {other : Nat → Bool} {l : List Record} {n : Nat} (h : Sound other l n) (o : Op)
    (ho : ∀ t d, o = .add t d → Free other t) : Sound other (after l o) (n + cost o) := by
  have ht := (step l o).2
  have hw := weight_after l o
  have hmem : ∀ t ∈ (after l o).map (·.type), Free other t ∧ t ≠ 0 := by
    intro t hm
    rw [ht] at hm
    have old : t ∈ l.map (·.type) → Free other t ∧ t ≠ 0 := by
      intro hm
      obtain ⟨r, hr, rfl⟩ := List.mem_map.1 hm
      exact h.free r hr
    cases o with
    | add u d =>
      simp only [addType] at hm
      split at hm
      · rename_i hu
        rcases List.mem_append.1 hm with hm | hm
        · exact old hm
        · rw [List.mem_singleton] at hm
          subst hm
          exact ⟨ho _ _ rfl, hu.1⟩
      · exact old hm
    | delete u k => exact old hm
  refine ⟨?_, fun r hr => hmem r.type (List.mem_map.2 ⟨r, hr, rfl⟩), by have := h.weight; omega⟩
  rw [ht]
  cases o with
  | add u d =>
    simp only [addType]
    split
    · rename_i hu
      rw [List.nodup_append]
      refine ⟨h.nodup, by simp, ?_⟩
      intro a ha b hb e
      rw [List.mem_singleton] at hb
      subst hb
      subst e
      exact hu.2 ha
    · exact h.nodup
  | delete u k => exact h.nodup

theorem Sound.filled {other : Nat → Bool} {l : List Record} {n : Nat} (h : Sound other l n) : Sound other (filled l) n := by
  have hs : (UserData.filled l).Sublist l := List.filter_sublist
  exact ⟨h.nodup.sublist (hs.map _), fun r hr => h.free r (hs.subset hr), by rw [weight_filled]; exact h.weight⟩

/-! ## Writing -/

def wire (l : List Record) : Bytes := (members l).flatMap fun m => box m.1 m.2

theorem wire_length (l : List Record) : (wire l).length = weight l := by
  unfold wire weight
  rw [List.length_flatMap]
  congr 1
  apply List.map_congr_left
  intro m _
  simp [box]
  omega

theorem free_member {other : Nat → Bool} {l : List Record} {n : Nat} (h : Sound other l n) {m : Nat × Bytes} (hm : m ∈ members l) :
    Free other m.1 ∧ m.1 ≠ 0 ∧ 8 + m.2.length ≤ n := by
  have hle : 8 + m.2.length ≤ weight l := by
    unfold weight
    obtain ⟨a, b, hab⟩ := List.append_of_mem hm
    rw [hab]
    simp only [List.map_append, List.map_cons, List.sum_append, List.sum_cons]
    omega
  have := h.weight
  unfold members at hm
  obtain ⟨r, hr, hm⟩ := List.mem_flatMap.1 hm
  obtain ⟨d, _, rfl⟩ := List.mem_map.1 hm
  exact ⟨(h.free r hr).1, (h.free r hr).2, by omega⟩

theorem size_eq (ms : List (Nat × Bytes)) : ∀ n, n + (ms.map fun m => 8 + m.2.length).sum < 4294967296 →
    ms.foldl (fun n m => w32(n + memberSize m)) n = n + (ms.map fun m => 8 + m.2.length).sum := by
  induction ms with
  | nil => simp
  | cons m ms ih =>
    intro n hn
    simp only [List.map_cons, List.sum_cons] at hn
    have e : w32(n + memberSize m) = n + (8 + m.2.length) := by
      unfold memberSize
      omega
    rw [List.foldl_cons, e, ih _ (by omega)]
    simp only [List.map_cons, List.sum_cons]
    omega

theorem write_eq {other : Nat → Bool} {l : List Record} {n : Nat} (h : Sound other l n) (hn : 8 + n < 4294967296) :
    write l = .ok (box (fcc 'u' 'd' 't' 'a') (wire l)) := by
  have hw := h.weight
  have hl := wire_length l
  unfold write
  have hs : (members l).foldl (fun n m => w32(n + memberSize m)) 8 = 8 + (wire l).length := by
    rw [size_eq _ 8 (by unfold weight at hw; omega), hl]; rfl
  simp only [hs]
  have heach : Emits (W.each (fun m => nested (memberSize m) (putMember m)) (members l)) (wire l) := by
    have hm : ∀ m ∈ members l, Emits (nested (memberSize m) (putMember m)) (box m.1 m.2) := by
      intro m hm
      obtain ⟨h1, h2, h3⟩ := free_member h hm
      have e : memberSize m = 8 + m.2.length := by unfold memberSize; omega
      rw [e]
      refine emits_nested ?_ (by simp [box]; omega)
      unfold putMember
      rw [if_neg (show ¬ m.1 = typeUuid from h1.2.1), e]
      have := (emits_serBase (8 + m.2.length) m.1).then (emits_bytes m.2).thenAssert
      exact this.runW (by simp; omega) (by omega)
    unfold wire
    clear hs hl hw
    generalize members l = ms at hm
    induction ms with
    | nil => exact emits_skip
    | cons m ms ih =>
      simp only [W.each, List.flatMap_cons]
      exact (hm m (by simp)).seq (ih fun x hx => hm x (by simp [hx]))
  have := (emits_serBase (8 + (wire l).length) typeUdta).then heach.thenAssert
  exact this.runW (by simp; omega) (by omega)

/-! ## Reading -/

theorem parses_item {other : Nat → Bool} {m : Nat × Bytes} (h : Free other m.1) (hl : 8 + m.2.length < 4294967296) :
    Parses (getAtom (parseItem other)) (box m.1 m.2) m := by
  refine parses_getAtom ?_ hl h.1 h.2.1
  unfold parseItem
  rw [if_neg (by intro c; rcases c with c | c; exact h.2.1 c; rw [h.2.2.2.2] at c; cases c)]
  refine parsesAt_bytesRead ?_
  refine ParsesAt.bind_nil ((parses_getBytes (n := w32(8 + m.2.length + (4294967296 - 8))) (bs := m.2) ?_).at _) ?_
  · omega
  · exact (parses_pure _).at _

theorem stop_eq {size : Nat} (h1 : 8 ≤ size) (h2 : size < 4294967296) : stop size = size - 4 := by
  unfold stop
  omega

theorem parsesAt_loop {other : Nat → Bool} {sz : Nat} (ms : List (Nat × Bytes)) : ∀ (acc : List Record) (fuel k : Nat), ms.length < fuel →
    (∀ m ∈ ms, Free other m.1 ∧ 8 + m.2.length < 4294967296) → 8 ≤ k → sz < 4294967296 →
    (k + (ms.flatMap fun m => box m.1 m.2).length = sz ∨ k + (ms.flatMap fun m => box m.1 m.2).length + 4 = sz) →
    ParsesAt (loop other sz fuel acc) k (ms.flatMap fun m => box m.1 m.2) (ms.foldl addAtom acc) := by
  induction ms with
  | nil =>
    intro acc fuel k hf _ h8 hz hk
    obtain ⟨f, rfl⟩ : ∃ f, fuel = f + 1 := ⟨fuel - 1, by simp at hf; omega⟩
    unfold loop
    refine parsesAt_bytesRead ?_
    simp only [List.flatMap_nil, List.length_nil] at hk
    rw [stop_eq (by omega) hz, if_neg (by omega)]
    simpa using (parses_pure acc).at k
  | cons m ms ih =>
    intro acc fuel k hf h1 h8 hz hk
    obtain ⟨f, rfl⟩ : ∃ f, fuel = f + 1 := ⟨fuel - 1, by simp at hf; omega⟩
    simp only [List.flatMap_cons, List.length_append] at hk ⊢
    have hb : (box m.1 m.2).length = 8 + m.2.length := by simp [box]; omega
    obtain ⟨hm, hl⟩ := h1 m (by simp)
    unfold loop
    refine parsesAt_bytesRead ?_
    rw [stop_eq (by omega) hz, if_pos (by omega)]
    refine ParsesAt.bind ((parses_item hm hl).at _) ?_
    have hfree : ¬ (m.1 = typeFree ∨ m.1 = typeSkip) := by
      intro c
      rcases c with c | c
      · exact hm.2.2.1 c
      · exact hm.2.2.2.1 c
    rw [if_neg hfree]
    exact ih (addAtom acc m) f (k + (box m.1 m.2).length) (by simp at hf; omega)
      (fun x hx => h1 x (by simp [hx])) (by omega) hz (by omega)

theorem length_le_wire (ms : List (Nat × Bytes)) : ms.length ≤ (ms.flatMap fun m => box m.1 m.2).length := by
  induction ms with
  | nil => simp
  | cons m ms ih =>
    have : (box m.1 m.2).length = 8 + m.2.length := by simp [box]; omega
    simp only [List.length_cons, List.flatMap_cons, List.length_append]
    omega

theorem bind_ok {α β : Type} {p : P α} {f : α → P β} {s s' : PS} {a : α} (h : p s = .ok (a, s')) : (p >>= f) s = f a s' := by
  rw [P.bind_apply, h]

theorem parse_gen (other : Nat → Bool) (h : Hdr) :
    parse other h = (P.available >>= fun n => loop other h.size (n + 1) [] >>= fun l => fin h.size l) := by
  delta parse
  exact rfl

theorem available_bind {β : Type} (f : Nat → P β) (s : PS) : (P.available >>= f) s = f s.rest.length s := rfl

theorem parse_run {other : Nat → Bool} {h : Hdr} {s s' : PS} {l : List Record}
    (hl : loop other h.size (s.rest.length + 1) [] s = .ok (l, s')) : parse other h s = fin h.size l s' := by
  rw [parse_gen, available_bind, bind_ok hl]

theorem fin_plain {size : Nat} (l : List Record) (r : Bytes) (h : size < 4294967296) : fin size l ⟨r, size⟩ = .ok (l, ⟨r, size⟩) := by
  have c : ¬ (w32(size + (4294967296 - size)) = 4) := by omega
  unfold fin
  simp only [P.bind_apply, P.bytesRead, if_neg c, P.pure_apply, ne_eq, not_true_eq_false, if_false]

theorem fin_tail {k : Nat} (l : List Record) (tail r : Bytes) (h : k + 4 < 4294967296) (ht : tail.length = 4) :
    fin (k + 4) l ⟨tail ++ r, k⟩ = .ok (l, ⟨r, k + 4⟩) := by
  have c : w32(k + 4 + (4294967296 - k)) = 4 := by omega
  have hg : ∃ v, get32 ⟨tail ++ r, k⟩ = .ok (v, ⟨r, k + 4⟩) := by
    match tail with
    | [] => simp at ht
    | [_] => simp at ht
    | [_, _] => simp at ht
    | [_, _, _] => simp at ht
    | [a, b, c, d] => exact ⟨_, rfl⟩
    | _ :: _ :: _ :: _ :: _ :: _ => simp at ht
  obtain ⟨v, hg⟩ := hg
  unfold fin
  simp only [P.bind_apply, P.bytesRead, if_pos c, hg, P.pure_apply, ne_eq, not_true_eq_false, if_false]

/-- The box is read, with or without four bytes at its end. -/
theorem parse_eq {other : Nat → Bool} {l : List Record} {n : Nat} (h : Sound other l n) (tail : Bytes)
    (ht : tail = [] ∨ tail.length = 4) (hn : 8 + n + tail.length < 4294967296) (rest : Bytes) :
    ∃ hd, parseAtom (parse other) (box (fcc 'u' 'd' 't' 'a') (wire l ++ tail) ++ rest) = .ok (filled l, hd, rest) := by
  have hw := h.weight
  have hl := wire_length l
  have hall : (members l).foldl addAtom [] = filled l := by
    simpa using addAtom_all l [] h.nodup (by simp)
  have hfree : ∀ m ∈ members l, Free other m.1 ∧ 8 + m.2.length < 4294967296 := by
    intro m hm
    obtain ⟨h1, -, h3⟩ := free_member h hm
    exact ⟨h1, by omega⟩
  have key : ∀ N, N = 8 + (wire l ++ tail).length → ParsesAt (parse other ⟨N, fcc 'u' 'd' 't' 'a', [], 0, 8⟩) 8 (wire l ++ tail) (filled l) := by
    intro N hN r
    rw [List.length_append] at hN
    have hle : (members l).length ≤ (wire l).length := length_le_wire (members l)
    have hloop := parsesAt_loop (other := other) (sz := N) (members l) [] ((wire l ++ tail ++ r).length + 1) 8
      (by simp only [List.length_append]; omega) hfree (by omega) (by omega)
      (by
        show 8 + (wire l).length = N ∨ 8 + (wire l).length + 4 = N
        rcases ht with rfl | ht
        · exact .inl (by simp at hN; omega)
        · exact .inr (by omega)) (tail ++ r)
    change (loop other N _ []) ⟨wire l ++ (tail ++ r), 8⟩ = .ok (_, ⟨tail ++ r, 8 + (wire l).length⟩) at hloop
    rw [hall, ← List.append_assoc] at hloop
    rw [parse_run hloop]
    show fin N _ _ = _
    rcases ht with rfl | ht
    · obtain rfl : N = 8 + (wire l).length := by simpa using hN
      rw [List.nil_append, List.append_nil]
      exact fin_plain _ _ (by omega)
    · obtain rfl : N = 8 + (wire l).length + 4 := by omega
      have := fin_tail (k := 8 + (wire l).length) (filled l) tail r (by omega) ht
      rw [this, List.length_append, ht, Nat.add_assoc]
  have := parseAtom_small (key _ rfl) rfl (by rw [List.length_append]; omega) (by decide) (by decide) rest
  unfold box
  exact ⟨_, this⟩

/-! ## The theorems -/

theorem acted_sound (other : Nat → Bool) (acts : List Act) : ∀ (l : List Record) (n : Nat), Sound other l n →
    (∀ t d, Op.add t d ∈ ops acts → Free other t) → 8 + (n + ((ops acts).map cost).sum) < 4294967296 →
    ∃ l', acted other acts l = .ok l' ∧ Sound other l' (n + ((ops acts).map cost).sum) ∧
      ∀ t, items l' t = (ops acts).foldl (change t) (items l t) := by
  induction acts with
  | nil => intro l n h _ _; exact ⟨l, rfl, by simpa [ops] using h, fun _ => rfl⟩
  | cons a as ih =>
    intro l n h ht hn
    cases a with
    | op o =>
      have e : ops (.op o :: as) = o :: ops as := rfl
      rw [e] at ht hn ⊢
      simp only [List.map_cons, List.sum_cons] at hn ⊢
      obtain ⟨l', h1, h2, h3⟩ := ih (after l o) (n + cost o) (h.op o fun t d e => ht t d (by rw [e]; simp))
        (fun t d hm => ht t d (by simp [hm])) (by omega)
      refine ⟨l', h1, by rw [← Nat.add_assoc]; exact h2, fun t => ?_⟩
      rw [h3, List.foldl_cons, (step l o).1]
    | file =>
      have e : ops (.file :: as) = ops as := rfl
      rw [e] at ht hn ⊢
      obtain ⟨hd, hp⟩ := parse_eq h [] (.inl rfl) (by simp; omega) []
      rw [List.append_nil, List.append_nil] at hp
      obtain ⟨l', h1, h2, h3⟩ := ih (filled l) n h.filled ht hn
      refine ⟨l', ?_, h2, fun t => ?_⟩
      · simp only [acted, act]
        rw [write_eq h (by omega)]
        simp only [Res.bind]
        rw [hp]
        exact h1
      · rw [h3, items_filled l h.nodup]

theorem sound_nil (other : Nat → Bool) : Sound other [] 0 := ⟨by simp, by simp, by simp [weight, members]⟩

/-- **C102.** After any calls that add and delete items of user data, with files written and read anywhere
between them, the items of every type are those added and not deleted, in the order of addition: their number
is reported, each is returned by its index, as data or as a foreign box, and no other index is accepted.

Missing for the full claim: types of boxes that the library knows, `uuid`, and `free` and `skip` (`c102_not_free`). -/
theorem c102_items_partial (other : Nat → Bool) (acts : List Act) (h : Fits other (ops acts)) :
    ∃ l, acted other acts [] = .ok l ∧ ∀ t, t ≠ 0 → Answers l t (kept t (ops acts)) := by
  obtain ⟨l, h1, h2, h3⟩ := acted_sound other acts [] 0 (sound_nil other) h.types (by have := h.size; omega)
  refine ⟨l, h1, fun t ht => ?_⟩
  have := answers l t ht
  rw [h3] at this
  exact this

theorem run_sound {other : Nat → Bool} {os : List Op} (h : Fits other os) : Sound other (run os) (os.map cost).sum := by
  have : ∀ (os : List Op) (l : List Record) (n : Nat), Sound other l n → (∀ t d, Op.add t d ∈ os → Free other t) →
      Sound other (os.foldl after l) (n + (os.map cost).sum) := by
    intro os
    induction os with
    | nil => intro l n h _; simpa using h
    | cons o os ih =>
      intro l n h ht
      rw [List.foldl_cons, List.map_cons, List.sum_cons, ← Nat.add_assoc]
      exact ih _ _ (h.op o fun t d e => ht t d (by rw [e]; simp)) fun t d hm => ht t d (by simp [hm])
  have := this os [] 0 (sound_nil other) h.types
  rw [Nat.zero_add] at this
  exact this

theorem items_mem {l : List Record} (hn : (l.map (·.type)).Nodup) {r : Record} (hr : r ∈ l) : items l r.type = r.items := by
  induction l with
  | nil => simp at hr
  | cons x l ih =>
    rw [List.map_cons, List.nodup_cons] at hn
    unfold items find
    rw [List.find?_cons]
    rcases List.mem_cons.1 hr with rfl | hr
    · simp
    · have : x.type ≠ r.type := fun e => hn.1 (List.mem_map.2 ⟨r, hr, e.symm⟩)
      simp only [beq_eq_false_iff_ne.2 this]
      exact ih hn.2 hr

theorem wire_layout {os : List Op} (hn : ((run os).map (·.type)).Nodup) :
    wire (run os) = (types os).flatMap fun t => (kept t os).flatMap fun d => box t d := by
  obtain ⟨h1, h2⟩ := run_spec os
  rw [← h2, List.flatMap_map]
  unfold wire members
  rw [List.flatMap_assoc]
  have : ∀ rs : List Record, (∀ r ∈ rs, r ∈ run os) →
      (rs.flatMap fun r => (r.items.map fun d => (r.type, d)).flatMap fun m => box m.1 m.2) =
      rs.flatMap fun r => (kept r.type os).flatMap fun d => box r.type d := by
    intro rs hrs
    induction rs with
    | nil => rfl
    | cons r rs ih =>
      rw [List.flatMap_cons, List.flatMap_cons, ih fun x hx => hrs x (by simp [hx]), ← h1, items_mem hn (hrs r (by simp)),
        List.flatMap_map]
  exact this _ fun _ h => h

/-- **C102, the box.** The items are written type after type, and are read from such a box, whether or not four
more bytes end it; the types that have items are known then, in the same order. -/
theorem c102_box_partial (other : Nat → Bool) (os : List Op) (h : Fits other os) (tail : Bytes) (ht : tail = [] ∨ tail.length = 4)
    (hl : (layout os).length + tail.length < 2 ^ 32) :
    write (run os) = .ok (layout os) ∧
    ∀ rest, ∃ l hd, parseAtom (parse other)
        (box (fcc 'u' 'd' 't' 'a') (((types os).flatMap fun t => (kept t os).flatMap fun d => box t d) ++ tail) ++ rest) = .ok (l, hd, rest) ∧
      (∀ t, t ≠ 0 → Answers l t (kept t os)) ∧
      l.map (·.type) = (types os).filter fun t => !(kept t os).isEmpty := by
  have hs := run_sound h
  have hwl := wire_layout hs.nodup
  have hx : Sound other (run os) (weight (run os)) := ⟨hs.nodup, hs.free, Nat.le_refl _⟩
  have hlen := wire_length (run os)
  have hb : (layout os).length = 8 + (wire (run os)).length := by
    unfold layout; rw [← hwl]; simp [box]; omega
  refine ⟨?_, fun rest => ?_⟩
  · have := write_eq hs (by have := h.size; omega)
    rw [this, hwl]
    rfl
  obtain ⟨hd, hp⟩ := parse_eq hx tail ht (by omega) rest
  rw [hwl] at hp
  refine ⟨_, hd, hp, fun t ht => ?_, ?_⟩
  · have := answers (filled (run os)) t ht
    rw [items_filled _ hs.nodup, (run_spec os).1] at this
    exact this
  · rw [← (run_spec os).2]
    have : ∀ rs : List Record, (∀ r ∈ rs, r ∈ run os) →
        (filled rs).map (·.type) = (rs.map (·.type)).filter fun t => !(kept t os).isEmpty := by
      intro rs hrs
      induction rs with
      | nil => rfl
      | cons r rs ih =>
        have hi := items_mem hs.nodup (hrs r (by simp))
        rw [(run_spec os).1] at hi
        have ih := ih fun x hx => hrs x (by simp [hx])
        unfold filled at ih ⊢
        rw [List.filter_cons, List.map_cons, List.filter_cons, hi]
        split
        · rw [List.map_cons, ih]
        · exact ih
    exact this _ fun _ h => h

/-- **C102 fails for free space.** Items of types `free` and `skip` are written and passed over when read. -/
theorem c102_not_free (other : Nat → Bool) (t : Nat) (ht : t = fcc 'f' 'r' 'e' 'e' ∨ t = fcc 's' 'k' 'i' 'p')
    (ho : other t = false) (d : Bytes) (hd : d.length < 4294967280) :
    item (run [.add t d]) t 1 = .ok d ∧
    ∃ l, acted other [.op (.add t d), .file] [] = .ok l ∧ entryCount l t = .ok 0 := by
  have h0 : t ≠ 0 := by rcases ht with rfl | rfl <;> decide
  have hu : t ≠ typeUuid := by rcases ht with rfl | rfl <;> decide
  have h32 : t < 4294967296 := by rcases ht with rfl | rfl <;> decide
  have hrun : after [] (.add t d) = [⟨t, [d]⟩] := by simp [after, add, find, h0]
  refine ⟨by simp [run, hrun, item, h0, find], ?_⟩
  have hm : members [⟨t, [d]⟩] = [(t, d)] := by simp [members]
  have hms : memberSize (t, d) = 8 + d.length := by simp only [memberSize]; omega
  have hbl : (box t d).length = 8 + d.length := by simp [box]; omega
  have hw : write [⟨t, [d]⟩] = .ok (box (fcc 'u' 'd' 't' 'a') (box t d)) := by
    unfold write
    rw [hm]
    have hs : w32(8 + memberSize (t, d)) = 8 + (box t d).length := by rw [hms, hbl]; omega
    simp only [List.foldl_cons, List.foldl_nil, hs, W.each]
    have hp : Emits (nested (memberSize (t, d)) (putMember (t, d))) (box t d) := by
      rw [hms]
      refine emits_nested ?_ hbl
      unfold putMember
      rw [if_neg hu, hms]
      exact ((emits_serBase (8 + d.length) t).then (emits_bytes d).thenAssert).runW (by simp; omega) (by omega)
    have := (emits_serBase (8 + (box t d).length) typeUdta).then (hp.seq emits_skip).thenAssert
    rw [List.append_nil] at this
    exact this.runW (by simp; omega) (by omega)
  have hitem : Parses (getAtom (parseItem other)) (box t d) (t, d) := by
    refine parses_getAtom ?_ (by omega) h32 hu
    unfold parseItem
    rw [if_neg (by intro c; rcases c with c | c; exact hu c; rw [ho] at c; cases c)]
    refine parsesAt_bytesRead ?_
    refine ParsesAt.bind_nil ((parses_getBytes (n := w32(8 + d.length + (4294967296 - 8))) (bs := d) (by omega)).at _) ?_
    exact (parses_pure _).at _
  have key : ∀ N, N = 8 + (box t d).length → ParsesAt (parse other ⟨N, fcc 'u' 'd' 't' 'a', [], 0, 8⟩) 8 (box t d) [] := by
    intro N hN r
    have hi := hitem r 8
    have hbr : (8 + (box t d).length) = N := hN.symm
    obtain ⟨f, hf⟩ : ∃ f, (box t d ++ r).length + 1 = f + 1 + 1 := ⟨(box t d ++ r).length - 1, by rw [List.length_append]; omega⟩
    have hfree : t = typeFree ∨ t = typeSkip := ht
    have l2 : loop other N (f + 1) [] ⟨r, 8 + (box t d).length⟩ = .ok ([], ⟨r, 8 + (box t d).length⟩) := by
      unfold loop
      simp only [P.bind_apply, P.bytesRead]
      rw [stop_eq (by omega) (by omega), if_neg (by omega)]
      rfl
    have l1 : loop other N (f + 1 + 1) [] ⟨box t d ++ r, 8⟩ = .ok ([], ⟨r, 8 + (box t d).length⟩) := by
      rw [loop]
      simp only [P.bind_apply, P.bytesRead]
      rw [stop_eq (by omega) (by omega), if_pos (by omega)]
      simp only [P.bind_apply]
      rw [hi]
      simp only
      rw [if_pos hfree]
      exact l2
    rw [← hf, hbr] at l1
    rw [parse_run l1]
    show fin N _ _ = _
    rw [hbr]
    exact fin_plain _ _ (by omega)
  have hparse := parseAtom_small (key _ rfl) rfl (by omega) (by decide) (by decide) []
  refine ⟨[], ?_, by simp [entryCount, h0, find]⟩
  simp only [acted, act]
  simp only [Res.bind, hrun, hw]
  unfold box at hparse ⊢
  rw [List.append_nil] at hparse
  rw [hparse]

/-- The calls and the file of the next theorem. -/
def emptied : List Act := [.op (.add (fcc 'n' 'a' 'm' 'e') [1]), .op (.add (fcc 'c' 'p' 'r' 't') [2]), .op (.delete (fcc 'n' 'a' 'm' 'e') 1)]

/-- **C102 fails for types without items.** A type whose items were deleted is still counted, and is the first
type, until a file is written and read. -/
theorem c102_not_types :
    ((acted (fun _ => false) emptied []).bind fun l => (indType l 1).bind fun t => .ok (typeCount l, t)) = .ok (2, fcc 'n' 'a' 'm' 'e') ∧
    ((acted (fun _ => false) (emptied ++ [.file]) []).bind fun l => (indType l 1).bind fun t => .ok (typeCount l, t)) =
      .ok (1, fcc 'c' 'p' 'r' 't') := by
  decide +kernel

/-! ## A case -/

namespace Example102

/-- Items of two types; the only item of the second is deleted after a first file, and one is added before a second. -/
def acts : List Act :=
  [.op (.add (fcc 'n' 'a' 'm' 'e') [1, 2]), .op (.add (fcc 'c' 'p' 'r' 't') [3]), .op (.add (fcc 'n' 'a' 'm' 'e') []), .file,
   .op (.delete (fcc 'c' 'p' 'r' 't') 1), .op (.add (fcc 'n' 'a' 'm' 'e') [4, 5, 6]), .file, .op (.delete (fcc 'n' 'a' 'm' 'e') 1)]

theorem fits : Fits (fun t => t = fcc 'm' 'o' 'o' 'v') (ops acts) := by
  refine ⟨?_, by decide +kernel⟩
  intro t d h
  simp only [acts, ops, List.filterMap_cons, List.filterMap_nil, List.mem_cons, Op.add.injEq, reduceCtorEq, List.not_mem_nil,
    or_false, false_or] at h
  rcases h with ⟨rfl, -⟩ | ⟨rfl, -⟩ | ⟨rfl, -⟩ | ⟨rfl, -⟩ <;> (unfold Free; decide +kernel)

example : ∃ l, acted (fun t => t = fcc 'm' 'o' 'o' 'v') acts [] = .ok l ∧ item l (fcc 'n' 'a' 'm' 'e') 1 = .ok [] ∧
    foreign l (fcc 'n' 'a' 'm' 'e') 2 = .ok (fcc 'n' 'a' 'm' 'e', [4, 5, 6]) ∧ entryCount l (fcc 'c' 'p' 'r' 't') = .ok 0 := by
  obtain ⟨l, h1, h2⟩ := c102_items_partial _ acts fits
  obtain ⟨-, b, -⟩ := h2 (fcc 'n' 'a' 'm' 'e') (by decide)
  exact ⟨l, h1, (b 0 [] (by decide +kernel)).1, (b 1 [4, 5, 6] (by decide +kernel)).2, (h2 (fcc 'c' 'p' 'r' 't') (by decide)).1⟩

example : ∃ l hd, parseAtom (parse fun t => t = fcc 'm' 'o' 'o' 'v')
      (box (fcc 'u' 'd' 't' 'a') (((types (ops acts)).flatMap fun t => (kept t (ops acts)).flatMap fun d => box t d) ++ [0, 0, 0, 0]) ++ [7]) = .ok (l, hd, [7]) ∧
    l.map (·.type) = [fcc 'n' 'a' 'm' 'e'] := by
  obtain ⟨-, h⟩ := c102_box_partial _ (ops acts) fits [0, 0, 0, 0] (.inr rfl) (by decide +kernel)
  obtain ⟨l, hd, h1, -, h3⟩ := h [7]
  exact ⟨l, hd, h1, h3.trans (by decide +kernel)⟩

example : item (run [.add (fcc 's' 'k' 'i' 'p') [1]]) (fcc 's' 'k' 'i' 'p') 1 = .ok [1] ∧
    ∃ l, acted (fun _ => false) [.op (.add (fcc 's' 'k' 'i' 'p') [1]), .file] [] = .ok l ∧ entryCount l (fcc 's' 'k' 'i' 'p') = .ok 0 :=
  c102_not_free _ _ (.inr rfl) rfl _ (by decide)

end Example102

end Verif.UserData
