import Verif.Model.Iinf
import Verif.Spec.Iinf
import Verif.Lemmas.Auto
import Verif.Lemmas.Movie

/-!
# C59: item information
-/

namespace Verif.Iinf

/-! ## Running the calls -/

/-- One call on the model; a call that is refused changes nothing. -/
def call (primary : Nat) (s : S) : Call → Res S
  | .set id p n t e => .ok (setInfo s id p n t e)
  | .extend id d t => setExtension s id d t
  | .type id t u => setType s id t u
  | .hide id => hide s (some primary) id

def run (primary : Nat) : List Call → S → Res S
  | [], s => .ok s
  | c :: cs, s => match call primary s c with
    | .ok s' => run primary cs s'
    | .err _ => run primary cs s
    | .ub => .ub

/-! ## What an entry stands for -/

/-- The string in a block. -/
def str : Option Bytes → Bytes
  | none => []
  | some b => b.takeWhile (· ≠ 0)

def kindOf (e : Entry) : Kind :=
  if e.version = 1 then .extension e.extType (e.ext.getD [])
  else if e.version = 2 then .typed e.itemType (str e.uri)
  else .plain

def infoOf (e : Entry) : Info := ⟨str e.name, e.protection, kindOf e, e.flags % 2 = 1⟩

/-- A terminated string. -/
def Str (o : Option Bytes) : Prop := ∃ s : Bytes, o = some (s ++ [0]) ∧ 0 ∉ s

/-- Entries as the calls make them; without content types and encodings if `bare`. -/
structure Good (bare : Prop) (e : Entry) : Prop where
  name : Str e.name
  version : e.version ≤ 2
  ext : e.version = 1 → ∃ x, e.ext = some x
  uri : e.version = 2 → Str e.uri
  flags : e.flags ≤ 1
  bare : bare → e.contentType = some [0] ∧ e.contentEncoding = some [0]

theorem findIdx_str {s : Bytes} (h : 0 ∉ s) (r : Bytes) : (s ++ 0 :: r).findIdx? (· = 0) = some s.length := by
  induction s with
  | nil => simp [List.findIdx?_cons]
  | cons a s ih =>
    have ha : a ≠ 0 := fun e => h (by simp [e])
    have := ih fun hs => h (List.mem_cons_of_mem _ hs)
    simp [List.findIdx?_cons, ha, this]

theorem strlen_str {s : Bytes} (h : 0 ∉ s) (r : Bytes) : strlen (s ++ 0 :: r) = .ok s.length := by
  unfold strlen; rw [findIdx_str h]

theorem strlen_none {s : Bytes} (h : 0 ∉ s) : strlen s = .ub := by
  have : s.findIdx? (· = 0) = none := by
    rw [List.findIdx?_eq_none_iff]
    intro x hx
    simp only [decide_eq_false_iff_not]
    intro e; exact h (e ▸ hx)
  unfold strlen; rw [this]

theorem str_some {s : Bytes} (h : 0 ∉ s) : str (some (s ++ [0])) = s := by
  unfold str
  simp only
  rw [List.takeWhile_append_of_pos]
  · simp
  · intro x hx
    simp only [ne_eq, decide_not, Bool.not_eq_eq_eq_not, Bool.not_true, decide_eq_false_iff_not]
    intro e; exact h (e ▸ hx)

theorem copyStr_str {o : Option Bytes} (h : Clean o) : Str (some (copyStr o)) ∧ str (some (copyStr o)) = o.getD [] := by
  cases o with
  | none => exact ⟨⟨[], rfl, by simp⟩, str_some (s := []) (by simp)⟩
  | some s => exact ⟨⟨s, rfl, h⟩, str_some h⟩

/-! ## The invariant -/

/-- The members stand for the records. -/
structure Stands (bare : Prop) (l : List Member) (rs : List (Nat × Info)) (es : List Entry) : Prop where
  members : l = es.map .infe
  good : ∀ e ∈ es, Good bare e
  records : rs = es.map fun e => (e.id, infoOf e)

def changeLast (id : Nat) (f : Entry → Entry) : List Entry → List Entry
  | [] => []
  | e :: l => if e.id = id ∧ ∀ x ∈ l, x.id ≠ id then f e :: l else e :: changeLast id f l

theorem changeFirst_none {id : Nat} {f : Entry → Entry} (es : List Entry) (h : ∀ e ∈ es, e.id ≠ id) :
    changeFirst id f (es.map .infe) = es.map .infe := by
  induction es with
  | nil => rfl
  | cons e es ih =>
    simp only [List.map_cons, changeFirst]
    rw [if_neg (h e (by simp)), ih fun x hx => h x (by simp [hx])]

theorem changeFirst_append {id : Nat} {f : Entry → Entry} (a b : List Entry) :
    changeFirst id f ((a ++ b).map .infe) =
      if ∃ x ∈ a, x.id = id then changeFirst id f (a.map .infe) ++ b.map .infe
      else a.map .infe ++ changeFirst id f (b.map .infe) := by
  induction a with
  | nil => simp
  | cons e a ih =>
    simp only [List.cons_append, List.map_cons, changeFirst]
    by_cases h : e.id = id
    · rw [if_pos h, if_pos ⟨e, by simp, h⟩]; simp [h]
    · rw [if_neg h, ih]
      by_cases h2 : ∃ x ∈ a, x.id = id
      · obtain ⟨x, hx, e'⟩ := h2
        rw [if_pos ⟨x, hx, e'⟩, if_pos ⟨x, by simp [hx], e'⟩]; simp [h]
      · rw [if_neg h2, if_neg (by
          rintro ⟨x, hx, e'⟩
          rcases List.mem_cons.1 hx with rfl | hx
          · exact h e'
          · exact h2 ⟨x, hx, e'⟩)]

theorem change_eq (id : Nat) (f : Entry → Entry) (es : List Entry) :
    change (es.map .infe) id f = (changeLast id f es).map .infe := by
  unfold change
  induction es with
  | nil => rfl
  | cons e es ih =>
    rw [← List.map_reverse, List.reverse_cons, changeFirst_append]
    simp only [changeLast]
    by_cases h2 : ∃ x ∈ es.reverse, x.id = id
    · rw [if_pos h2, List.reverse_append, List.map_reverse, ih]
      obtain ⟨x, hx, e'⟩ := h2
      rw [if_neg (fun h => h.2 x (by simpa using hx) e')]
      simp
    · rw [if_neg h2]
      have h3 : ∀ x ∈ es, x.id ≠ id := fun x hx e' => h2 ⟨x, by simpa using hx, e'⟩
      by_cases h : e.id = id
      · rw [if_pos ⟨h, h3⟩]
        simp [changeFirst, h]
      · rw [if_neg (fun h' => h h'.1)]
        have : changeLast id f es = es := by
          clear ih h2
          induction es with
          | nil => rfl
          | cons a es ih => rw [changeLast, if_neg (fun h' => h3 a (by simp) h'.1), ih fun x hx => h3 x (by simp [hx])]
        rw [this]
        simp [changeFirst, h]

theorem changeLast_records {id : Nat} {f : Entry → Entry} {g : Info → Info} (hid : ∀ e, (f e).id = e.id)
    (es : List Entry) (hg : ∀ e ∈ es, infoOf (f e) = g (infoOf e)) :
    (changeLast id f es).map (fun e => (e.id, infoOf e)) = amendLast id g (es.map fun e => (e.id, infoOf e)) := by
  induction es with
  | nil => rfl
  | cons e es ih =>
    simp only [changeLast, List.map_cons, amendLast]
    have e1 : (∀ x ∈ es.map (fun e => (e.id, infoOf e)), x.1 ≠ id) ↔ ∀ x ∈ es, x.id ≠ id := by simp
    by_cases h : e.id = id ∧ ∀ x ∈ es, x.id ≠ id
    · rw [if_pos h, if_pos ⟨h.1, e1.2 h.2⟩]
      simp [hid, hg e (by simp), h.1]
    · rw [if_neg h, if_neg (fun h' => h ⟨h'.1, e1.1 h'.2⟩), List.map_cons, ih fun x hx => hg x (by simp [hx])]

theorem changeLast_mem {id : Nat} {f : Entry → Entry} {es : List Entry} {e : Entry} (h : e ∈ changeLast id f es) :
    e ∈ es ∨ ∃ x ∈ es, e = f x := by
  induction es with
  | nil => simp [changeLast] at h
  | cons a es ih =>
    simp only [changeLast] at h
    split at h
    · rcases List.mem_cons.1 h with rfl | h
      · exact .inr ⟨a, by simp, rfl⟩
      · exact .inl (by simp [h])
    · rcases List.mem_cons.1 h with rfl | h
      · exact .inl (by simp)
      · rcases ih h with h | ⟨x, hx, h⟩
        · exact .inl (by simp [h])
        · exact .inr ⟨x, by simp [hx], h⟩

/-- The newest record of the item. -/
def newest (rs : List (Nat × Info)) (id : Nat) : Option Info := ((rs.reverse.find? fun r => r.1 == id)).map Prod.snd

theorem getEntry_eq (es : List Entry) (id : Nat) :
    getEntry (es.map .infe) id = es.reverse.find? fun e => e.id == id := by
  unfold getEntry
  rw [← List.map_reverse, List.find?_map]
  have : (isEntry id ∘ Member.infe) = fun e => e.id == id := rfl
  rw [this]
  cases es.reverse.find? fun e => e.id == id <;> rfl

theorem newest_eq (es : List Entry) (id : Nat) :
    newest (es.map fun e => (e.id, infoOf e)) id = (getEntry (es.map .infe) id).map infoOf := by
  rw [getEntry_eq]
  unfold newest
  rw [← List.map_reverse, List.find?_map]
  have : ((fun r : Nat × Info => r.1 == id) ∘ fun e : Entry => (e.id, infoOf e)) = fun e => e.id == id := rfl
  rw [this]
  cases es.reverse.find? fun e => e.id == id <;> rfl

theorem getEntry_mem {es : List Entry} {id : Nat} {e : Entry} (h : getEntry (es.map .infe) id = some e) :
    e ∈ es ∧ e.id = id := by
  rw [getEntry_eq] at h
  exact ⟨by simpa using List.mem_of_find?_eq_some h, by simpa using List.find?_some h⟩

theorem amendLast_none {id : Nat} {g : Info → Info} (rs : List (Nat × Info)) (h : newest rs id = none) :
    amendLast id g rs = rs := by
  have h' : ∀ r ∈ rs, r.1 ≠ id := by
    unfold newest at h
    rw [Option.map_eq_none_iff, List.find?_eq_none] at h
    intro r hr
    simpa using h r (by simpa using hr)
  clear h
  induction rs with
  | nil => rfl
  | cons r rs ih => rw [amendLast, if_neg (fun e => h' r (by simp) e.1), ih fun x hx => h' x (by simp [hx])]

theorem newest_snoc (rs : List (Nat × Info)) (r : Nat × Info) (id : Nat) :
    newest (rs ++ [r]) id = if id = r.1 then some r.2 else newest rs id := by
  unfold newest
  rw [List.reverse_append]
  simp only [List.reverse_cons, List.reverse_nil, List.nil_append, List.singleton_append, List.find?_cons]
  by_cases h : id = r.1
  · simp [h]
  · rw [if_neg h]
    have : (r.1 == id) = false := by simpa using fun e => h e.symm
    rw [this]

theorem newest_cons (r : Nat × Info) (rs : List (Nat × Info)) (id : Nat) :
    newest (r :: rs) id = match newest rs id with
      | some i => some i
      | none => if r.1 = id then some r.2 else none := by
  unfold newest
  rw [List.reverse_cons, List.find?_append]
  cases rs.reverse.find? fun r => r.1 == id with
  | some i => rfl
  | none =>
    by_cases h : r.1 = id
    · simp [h]
    · simp [h]

theorem newest_none {rs : List (Nat × Info)} {id : Nat} : newest rs id = none ↔ ∀ r ∈ rs, r.1 ≠ id := by
  unfold newest
  rw [Option.map_eq_none_iff, List.find?_eq_none]
  simp

theorem newest_amend (id : Nat) (g : Info → Info) (rs : List (Nat × Info)) (k : Nat) :
    newest (amendLast id g rs) k = if k = id then (newest rs id).map g else newest rs k := by
  induction rs with
  | nil => simp [amendLast, newest]
  | cons r rs ih =>
    simp only [amendLast]
    by_cases h : r.1 = id ∧ ∀ x ∈ rs, x.1 ≠ id
    · rw [if_pos h, newest_cons, newest_cons, newest_cons]
      have hn := newest_none.2 h.2
      by_cases hk : k = id
      · subst hk; rw [hn]; simp [h.1]
      · rw [if_neg hk]
        have e1 : ¬ (id = k) := fun e => hk e.symm
        have e2 : ¬ (r.1 = k) := by rw [h.1]; exact e1
        simp [e1, e2]
    · rw [if_neg h, newest_cons, ih, newest_cons, newest_cons]
      by_cases hk : k = id
      · subst hk
        rw [if_pos rfl, if_pos rfl]
        cases hn : newest rs k with
        | some i => rfl
        | none =>
          have : ¬ (r.1 = k) := fun e => h ⟨e, newest_none.1 hn⟩
          simp [this]
      · rw [if_neg hk, if_neg hk]

/-- The records tell what is known. -/
theorem known_eq (primary : Nat) (calls : List Call) (id : Nat) :
    newest (records primary calls) id = known primary calls id := by
  have : ∀ (rs : List (Nat × Info)) (m : Known), (∀ id, newest rs id = m id) →
      ∀ id, newest (calls.foldl (record primary) rs) id = calls.foldl (learn primary) m id := by
    induction calls with
    | nil => exact fun _ _ h => h
    | cons c cs ih =>
      intro rs m h
      apply ih
      intro id
      cases c with
      | set i p n t e =>
        simp only [record, learn]
        rw [newest_snoc, h]
      | extend i d t =>
        simp only [record, learn, Known.amend]
        rw [newest_amend, h, h]
      | type i t u =>
        simp only [record, learn, Known.amend]
        rw [newest_amend, h, h]
      | hide i =>
        simp only [record, learn]
        split
        · exact h id
        · rw [newest_amend, h, h]; rfl
  exact this [] _ (fun _ => rfl) id

/-! ## Each call -/

theorem withEntry_eq {bare : Prop} {es : List Entry} {rs : List (Nat × Info)} (h : Stands bare (es.map .infe) rs es) (id : Nat) (err : Err)
    {f : Entry → Entry} {g : Info → Info} (hid : ∀ e, (f e).id = e.id) (hgood : ∀ e, Good bare e → Good bare (f e))
    (hg : ∀ e, Good bare e → infoOf (f e) = g (infoOf e)) :
    (withEntry (some (es.map .infe)) id err f = .err err ∧ amendLast id g rs = rs) ∨
    ∃ es', withEntry (some (es.map .infe)) id err f = .ok (some (es'.map .infe)) ∧
      Stands bare (es'.map .infe) (amendLast id g rs) es' := by
  unfold withEntry
  simp only
  cases he : getEntry (es.map .infe) id with
  | none =>
    refine .inl ⟨rfl, amendLast_none _ ?_⟩
    rw [h.records, newest_eq, he]; rfl
  | some e =>
    refine .inr ⟨changeLast id f es, by rw [change_eq], rfl, ?_, ?_⟩
    · intro x hx
      rcases changeLast_mem hx with hx | ⟨y, hy, rfl⟩
      · exact h.good x hx
      · exact hgood y (h.good y hy)
    · rw [h.records, changeLast_records hid es fun e he => hg e (h.good e he)]

theorem odd_or_one {n : Nat} (h : n ≤ 1) : (n ||| 1) = 1 := by
  match n, h with
  | 0, _ => rfl
  | 1, _ => rfl

/-- The state after the calls. -/
def Holds (bare : Prop) (s : S) (rs : List (Nat × Info)) : Prop :=
  (s = none ∧ rs = []) ∨ ∃ es, s = some (es.map .infe) ∧ Stands bare (es.map .infe) rs es

theorem setInfo_holds {bare : Prop} {s : S} {rs : List (Nat × Info)} (h : Holds bare s rs) (id p : Nat) {n : Option Bytes} (hn : Clean n)
    {t e : Option Bytes} (hb : bare → t = none ∧ e = none) : Holds bare (setInfo s id p n t e) (rs ++ [(id, ⟨n.getD [], p, .plain, false⟩)]) := by
  have hg : Good bare ⟨0, 0, id, p, some (copyStr n), some (copyShort t), some (copyShort e), 0, none, 0, none⟩ :=
    ⟨(copyStr_str hn).1, Nat.zero_le _, by simp, by simp, Nat.zero_le _,
      fun h => by obtain ⟨rfl, rfl⟩ := hb h; exact ⟨rfl, rfl⟩⟩
  rcases h with ⟨rfl, rfl⟩ | ⟨es, rfl, h⟩
  · refine .inr ⟨[_], rfl, rfl, ?_, ?_⟩
    · simpa using hg
    · simp [infoOf, kindOf, (copyStr_str hn).2]
  · refine .inr ⟨es ++ [⟨0, 0, id, p, some (copyStr n), some (copyShort t), some (copyShort e), 0, none, 0, none⟩],
      by simp [setInfo], rfl, ?_, ?_⟩
    · intro x hx
      rcases List.mem_append.1 hx with hx | hx
      · exact h.good x hx
      · rw [List.mem_singleton.1 hx]; exact hg
    · rw [h.records]
      simp [infoOf, kindOf, (copyStr_str hn).2]

theorem withEntry_holds {bare : Prop} {s : S} {rs : List (Nat × Info)} (h : Holds bare s rs) (id : Nat) (err : Err)
    {f : Entry → Entry} {g : Info → Info} (hid : ∀ e, (f e).id = e.id) (hgood : ∀ e, Good bare e → Good bare (f e))
    (hg : ∀ e, Good bare e → infoOf (f e) = g (infoOf e)) :
    (withEntry s id err f = .err err ∧ Holds bare s (amendLast id g rs)) ∨
    ∃ s', withEntry s id err f = .ok s' ∧ Holds bare s' (amendLast id g rs) := by
  rcases h with ⟨rfl, rfl⟩ | ⟨es, rfl, h⟩
  · exact .inl ⟨rfl, .inl ⟨rfl, rfl⟩⟩
  · rcases withEntry_eq h id err hid hgood hg with ⟨h1, h2⟩ | ⟨es', h1, h2⟩
    · exact .inl ⟨h1, by rw [h2]; exact .inr ⟨es, rfl, h⟩⟩
    · exact .inr ⟨_, h1, .inr ⟨es', rfl, h2⟩⟩

theorem call_holds {bare : Prop} (primary : Nat) {s : S} {rs : List (Nat × Info)} (h : Holds bare s rs) {c : Call} (hc : c.Clean)
    (hb : bare → c.Bare) :
    (∃ e, call primary s c = .err e ∧ Holds bare s (record primary rs c)) ∨
    ∃ s', call primary s c = .ok s' ∧ Holds bare s' (record primary rs c) := by
  cases c with
  | set id p n t e => exact .inr ⟨_, rfl, setInfo_holds h id p hc.1 hb⟩
  | extend id d t =>
    rcases withEntry_holds h id .badParam (f := fun e => { e with ext := some d, extType := t, version := 1 })
      (g := fun i => { i with kind := .extension t d }) (fun _ => rfl)
      (fun e he => ⟨he.name, by simp, fun _ => ⟨d, rfl⟩, by simp, he.flags, he.bare⟩) (fun e _ => rfl) with h' | h'
    · exact .inl ⟨_, h'⟩
    · exact .inr h'
  | type id t u =>
    rcases withEntry_holds h id .badParam (f := fun e => { e with version := 2, itemType := t, uri := some (copyStr u) })
      (g := fun i => { i with kind := .typed t (u.getD []) }) (fun _ => rfl)
      (fun e he => ⟨he.name, by simp, by simp, fun _ => (copyStr_str hc).1, he.flags, he.bare⟩)
      (fun e _ => by simp [infoOf, kindOf, (copyStr_str hc).2]) with h' | h'
    · exact .inl ⟨_, h'⟩
    · exact .inr h'
  | hide id =>
    simp only [call, hide, record]
    cases s with
    | none =>
      refine .inl ⟨_, rfl, ?_⟩
      rcases h with ⟨-, rfl⟩ | ⟨es, h, -⟩
      · exact .inl ⟨rfl, by split <;> rfl⟩
      · cases h
    | some l =>
      by_cases hp : primary = id
      · rw [if_pos hp, if_pos hp.symm]
        exact .inl ⟨_, rfl, h⟩
      · simp only
        rw [if_neg hp, if_neg fun e => hp e.symm]
        rcases withEntry_holds h id .invalidMedia (f := fun e => { e with flags := e.flags ||| 1 })
          (g := fun i => { i with hidden := true }) (fun _ => rfl)
          (fun e he => ⟨he.name, he.version, he.ext, he.uri, by simp [odd_or_one he.flags], he.bare⟩)
          (fun e he => by simp [infoOf, kindOf, odd_or_one he.flags]) with h' | h'
        · exact .inl ⟨_, h'⟩
        · exact .inr h'

theorem run_holds {bare : Prop} (primary : Nat) (calls : List Call) : ∀ {s : S} {rs : List (Nat × Info)}, Holds bare s rs →
    (∀ c ∈ calls, c.Clean) → (bare → ∀ c ∈ calls, c.Bare) → ∃ s', run primary calls s = .ok s' ∧ Holds bare s' (calls.foldl (record primary) rs) := by
  induction calls with
  | nil => exact fun h _ _ => ⟨_, rfl, h⟩
  | cons c cs ih =>
    intro s rs h hc hb
    rcases call_holds primary h (hc c (by simp)) (fun b => hb b c (by simp)) with ⟨e, h1, h2⟩ | ⟨s', h1, h2⟩
    · obtain ⟨s'', h3, h4⟩ := ih h2 (fun x hx => hc x (by simp [hx])) (fun b x hx => hb b x (by simp [hx]))
      exact ⟨s'', by simp only [run, h1]; exact h3, h4⟩
    · obtain ⟨s'', h3, h4⟩ := ih h2 (fun x hx => hc x (by simp [hx])) (fun b x hx => hb b x (by simp [hx]))
      exact ⟨s'', by simp only [run, h1]; exact h3, h4⟩

/-! ## The answers -/

theorem entryOf_holds {bare : Prop} {s : S} {rs : List (Nat × Info)} (h : Holds bare s rs) (id : Nat) (err : Err) :
    (newest rs id = none ∧ entryOf s id err = .err err) ∨
    ∃ e, newest rs id = some (infoOf e) ∧ entryOf s id err = .ok e ∧ Good bare e := by
  rcases h with ⟨rfl, rfl⟩ | ⟨es, rfl, h⟩
  · exact .inl ⟨rfl, rfl⟩
  · unfold entryOf
    rw [h.records, newest_eq]
    simp only
    cases he : getEntry (es.map .infe) id with
    | none => exact .inl ⟨rfl, rfl⟩
    | some e => exact .inr ⟨e, rfl, rfl, h.good e (getEntry_mem he).1⟩

theorem kind_cases {bare : Prop} {e : Entry} (h : Good bare e) :
    (e.version = 0 ∧ kindOf e = .plain) ∨ (∃ x, e.version = 1 ∧ e.ext = some x ∧ kindOf e = .extension e.extType x) ∨
    ∃ u, e.version = 2 ∧ e.uri = some (u ++ [0]) ∧ 0 ∉ u ∧ kindOf e = .typed e.itemType u := by
  have hv := h.version
  have : e.version = 0 ∨ e.version = 1 ∨ e.version = 2 := by omega
  rcases this with hv | hv | hv
  · exact .inl ⟨hv, by simp [kindOf, hv]⟩
  · obtain ⟨x, hx⟩ := h.ext hv
    exact .inr (.inl ⟨x, hv, hx, by simp [kindOf, hv, hx]⟩)
  · obtain ⟨u, hu, h0⟩ := h.uri hv
    exact .inr (.inr ⟨u, hv, hu, h0, by simp [kindOf, hv, hu, str_some h0]⟩)

/-- **C59, in memory.** After any sequence of calls, what is returned about an item is what the calls said,
the newest information counting; nothing is said about items without information. Content types and encodings are not
asked for by any function. -/
theorem c59_answers (primary : Nat) (calls : List Call) (hc : ∀ c ∈ calls, c.Clean) :
    ∃ s, run primary calls none = .ok s ∧ ∀ id, getExtension s id = extensionAnswer (known primary calls id) ∧
      getType s id = typeAnswer (known primary calls id) ∧ isHidden s id = hiddenAnswer (known primary calls id) := by
  obtain ⟨s, h1, h2⟩ := run_holds (bare := False) primary calls (.inl ⟨rfl, rfl⟩) hc False.elim
  refine ⟨s, h1, fun id => ?_⟩
  rw [← known_eq]
  unfold getExtension getType isHidden
  refine ⟨?_, ?_, ?_⟩
  · rcases entryOf_holds h2 id .badParam with ⟨e1, e2⟩ | ⟨e, e1, e2, e3⟩
    · rw [records, e1, e2]; rfl
    · rw [records, e1, e2]
      rcases kind_cases e3 with ⟨hv, hk⟩ | ⟨x, hv, hx, hk⟩ | ⟨u, hv, hu, h0, hk⟩
      · simp [Res.bind, hv, extensionAnswer, infoOf, hk]
      · simp [Res.bind, hv, extensionAnswer, infoOf, hk, hx]
      · simp [Res.bind, hv, extensionAnswer, infoOf, hk]
  · rcases entryOf_holds h2 id .badParam with ⟨e1, e2⟩ | ⟨e, e1, e2, e3⟩
    · rw [records, e1, e2]; rfl
    · rw [records, e1, e2]
      rcases kind_cases e3 with ⟨hv, hk⟩ | ⟨x, hv, hx, hk⟩ | ⟨u, hv, hu, h0, hk⟩
      · simp [Res.bind, hv, typeAnswer, infoOf, hk]
      · simp [Res.bind, hv, typeAnswer, infoOf, hk]
      · simp [Res.bind, hv, typeAnswer, infoOf, hk, hu, strlen_str h0]
  · rcases entryOf_holds h2 id .invalidMedia with ⟨e1, e2⟩ | ⟨e, e1, e2, e3⟩
    · rw [records, e1, e2]; rfl
    · rw [records, e1, e2]; rfl

/-! ## One entry in a file -/

theorem typeMime_eq : typeMime = mime := by decide
theorem typeUri_eq : typeUri = uriType := by decide
theorem mime_ne : mime ≠ uriType := by decide

theorem emits_str {s : Bytes} (h : 0 ∉ s) : Emits (putStr (some (s ++ [0]))) (s ++ [0]) := by
  unfold putStr
  simp only [strlen_str h]
  rw [List.take_of_length_le (by simp)]
  exact emits_bytes _

theorem strSize_str {s : Bytes} (h : 0 ∉ s) : strSize (some (s ++ [0])) = .ok s.length := strlen_str h []

theorem takeStr_str {s : Bytes} (h : 0 ∉ s) (r : Bytes) : takeStr (s ++ 0 :: r) = .ok (some (s ++ [0]), r) := by
  unfold takeStr
  have e1 : (s ++ 0 :: r).take (s.length + 1) = s ++ [0] := by
    rw [← List.singleton_append, ← List.append_assoc]
    exact List.take_left' (by simp)
  have e2 : (s ++ 0 :: r).drop (s.length + 1) = r := by
    rw [← List.singleton_append, ← List.append_assoc]
    exact List.drop_left' (by simp)
  cases hs : s ++ 0 :: r with
  | nil => simp at hs
  | cons a t =>
    simp only
    rw [← hs, strlen_str h]
    simp only [Res.bind]
    rw [e1, e2]

theorem length_entry (r : Nat × Info) : (layoutEntry r).length =
    16 + (typeBytes r.2.kind).length + r.2.name.length + 1 + (tailBytes r.2.kind).length := by
  simp [layoutEntry, fullBox, box]; omega

theorem entrySize_eq {e : Entry} (h : Good True e) (hf : (layoutEntry (e.id, infoOf e)).length < 2 ^ 32)
    (ht : ∀ t d, kindOf e = .extension t d → 0 < t) :
    entrySize e = .ok (layoutEntry (e.id, infoOf e)).length := by
  rw [length_entry] at *
  obtain ⟨n, hn, hn0⟩ := h.name
  obtain ⟨hc1, hc2⟩ := h.bare trivial
  have h0 : strSize (some [0]) = .ok 0 := rfl
  unfold entrySize
  rcases kind_cases h with ⟨hv, hk⟩ | ⟨x, hv, hx, hk⟩ | ⟨u, hv, hu, hu0, hk⟩
  · simp only [infoOf, hk, hn, str_some hn0, typeBytes, tailBytes, List.length_nil, List.length_cons] at hf ⊢
    simp only [hv, hc1, hc2, strSize_str hn0, h0]
    simp [Res.bind]
    omega
  · have ht := ht _ _ hk
    simp only [infoOf, hk, hn, str_some hn0, typeBytes, tailBytes, List.length_nil, List.length_cons, List.length_append, be_length] at hf ⊢
    simp only [hv, hc1, hc2, strSize_str hn0, h0]
    have : e.extType ≠ 0 := by omega
    simp [Res.bind, hx, extSize, this]
    omega
  · simp only [infoOf, hk, hn, str_some hn0, typeBytes, tailBytes, be_length] at hf ⊢
    simp only [hv, hc1, hc2, strSize_str hn0, h0, hu, strSize_str hu0, typeMime_eq, typeUri_eq]
    by_cases h1 : e.itemType = mime
    · simp [Res.bind, h1] at hf ⊢
      omega
    · by_cases h2 : e.itemType = uriType
      · simp [Res.bind, h2, mime_ne.symm] at hf ⊢
        omega
      · simp [Res.bind, h1, h2] at hf ⊢
        omega

theorem emits_entry {e : Entry} (h : Good True e) (ht : ∀ t d, kindOf e = .extension t d → 0 < t) {n : Nat}
    (hn : n = (layoutEntry (e.id, infoOf e)).length) (hf : n < 2 ^ 32) : runW n (putEntry n e) = .ok (layoutEntry (e.id, infoOf e)) := by
  have hlen := length_entry (e.id, infoOf e)
  obtain ⟨nm, hnm, hnm0⟩ := h.name
  obtain ⟨hc1, hc2⟩ := h.bare trivial
  have h0 : Emits (putStr (some [0])) [0] := emits_str (s := []) (by simp)
  have hfl : e.flags = if (infoOf e).hidden then 1 else 0 := by
    have := h.flags
    simp only [infoOf, decide_eq_true_eq]
    split <;> omega
  have hname : (infoOf e).name = nm := by simp only [infoOf, hnm, str_some hnm0]
  have key : EmitsFull (putEntry n e) ((be 4 n ++ be 4 (fcc 'i' 'n' 'f' 'e') ++ (be 1 (versionOf (infoOf e).kind) ++
      be 3 (if (infoOf e).hidden then 1 else 0))) ++ (be 2 e.id ++ (be 2 e.protection ++ (typeBytes (infoOf e).kind ++
      ((nm ++ [0]) ++ tailBytes (infoOf e).kind))))) := by
    unfold putEntry
    rw [hfl, hnm]
    have e1 : typeInfe = fcc 'i' 'n' 'f' 'e' := by decide
    rw [e1]
    have hs : ∀ v, Emits (serFull n (fcc 'i' 'n' 'f' 'e') v (if (infoOf e).hidden then 1 else 0))
      (be 4 n ++ be 4 (fcc 'i' 'n' 'f' 'e') ++ (be 1 v ++ be 3 (if (infoOf e).hidden then 1 else 0))) := by
      intro v
      have := emits_serFull n (fcc 'i' 'n' 'f' 'e') v (if (infoOf e).hidden then 1 else 0)
      simpa [List.append_assoc] using this
    rcases kind_cases h with ⟨hv, hk⟩ | ⟨x, hv, hx, hk⟩ | ⟨u, hv, hu, hu0, hk⟩
    · have hk' : (infoOf e).kind = .plain := hk
      rw [hk', hv]
      refine (hs 0).then ((emits_put16 _).then ((emits_put16 _).then (emits_skip.then ((emits_str hnm0).then ?_))))
      have := (h0.seq h0).then (emits_skip.thenAssert)
      simpa [tailBytes, hc1, hc2] using this
    · have hk' : (infoOf e).kind = .extension e.extType x := hk
      have ht := ht _ _ hk
      rw [hk', hv]
      refine (hs 1).then ((emits_put16 _).then ((emits_put16 _).then (emits_skip.then ((emits_str hnm0).then ?_))))
      have := (h0.seq h0).then (((emits_put32 e.extType).seq (emits_bytes x)).thenAssert)
      have hne : e.extType ≠ 0 := by omega
      simpa [tailBytes, hc1, hc2, hx, hne] using this
    · have hk' : (infoOf e).kind = .typed e.itemType u := hk
      rw [hk', hv]
      refine (hs 2).then ((emits_put16 _).then ((emits_put16 _).then ((emits_put32 _).then ((emits_str hnm0).then ?_))))
      simp only [tailBytes, typeMime_eq, typeUri_eq, hc1, hc2, hu]
      by_cases h1 : e.itemType = mime
      · have := (h0.seq h0).then (emits_skip.thenAssert)
        simpa [h1] using this
      · by_cases h2 : e.itemType = uriType
        · have := (emits_str hu0).then (emits_skip.thenAssert)
          simpa [h2, mime_ne.symm] using this
        · have := emits_skip.then (emits_skip.thenAssert)
          simpa [h1, h2] using this
  have e2 : layoutEntry (e.id, infoOf e) = (be 4 n ++ be 4 (fcc 'i' 'n' 'f' 'e') ++ (be 1 (versionOf (infoOf e).kind) ++
      be 3 (if (infoOf e).hidden then 1 else 0))) ++ (be 2 e.id ++ (be 2 e.protection ++ (typeBytes (infoOf e).kind ++
      ((nm ++ [0]) ++ tailBytes (infoOf e).kind)))) := by
    rw [hn]
    unfold layoutEntry fullBox box
    rw [hname]
    have e3 : (infoOf e).protection = e.protection := rfl
    simp only [List.append_assoc, e3]
    congr 2
    simp
    omega
  rw [e2]
  rw [e2] at hn
  exact key.runW hn.symm hf

/-- The entry that is read for a record. -/
def decoded (r : Nat × Info) : Entry :=
  let flags := if r.2.hidden then 1 else 0
  match r.2.kind with
  | .plain => ⟨0, flags, r.1, r.2.protection, some (r.2.name ++ [0]), some [0], some [0], 0, none, 0, none⟩
  | .extension t d => ⟨1, flags, r.1, r.2.protection, some (r.2.name ++ [0]), some [0], some [0], swap t, some d, 0, none⟩
  | .typed t u => ⟨2, flags, r.1, r.2.protection, some (r.2.name ++ [0]), if t = mime then some [0] else none,
      if t = mime then some [0] else none, 0, none, t, if t = uriType then some (u ++ [0]) else none⟩

/-- Strings without zeros. -/
def CleanInfo (i : Info) : Prop := 0 ∉ i.name ∧ ∀ t u, i.kind = .typed t u → 0 ∉ u

theorem parseStrings_eq {r : Nat × Info} (hc : CleanInfo r.2) (t0 : Nat)
    (h0 : t0 = match r.2.kind with | .typed t _ => t | _ => 0) :
    parseStrings ⟨versionOf r.2.kind, if r.2.hidden then 1 else 0, r.1, r.2.protection, none, none, none, 0, none, t0, none⟩
      (r.2.name ++ [0] ++ tailBytes r.2.kind) = .ok (decoded r) := by
  obtain ⟨id, name, prot, kind, hidden⟩ := r
  obtain ⟨hc1, hc2⟩ := hc
  simp only at *
  unfold parseStrings
  rw [List.append_assoc, List.singleton_append, takeStr_str hc1]
  have h00 : ∀ r : Bytes, takeStr (0 :: r) = .ok (some [0], r) := fun r => takeStr_str (s := []) (by simp) r
  cases kind with
  | plain => simp [Res.bind, versionOf, tailBytes, h00, decoded, h0]
  | extension t d =>
    have e : (be 4 t ++ d).take 4 = be 4 t := by
      rw [List.take_append_of_le_length (by simp), List.take_of_length_le (by simp)]
    have e' : (be 4 t ++ d).drop 4 = d := List.drop_left' (by simp)
    have hl : (be 4 t ++ d).length = 4 + d.length := by simp
    have hx : takeExt (be 4 t ++ d) = .ok (swap t, some d) := by
      unfold takeExt
      rw [hl, if_neg (by omega), if_neg (by omega), e, e']; rfl
    simp only [versionOf, tailBytes]
    simp [Res.bind, h00, decoded, h0, hx]
  | typed t u =>
    simp only at h0
    subst h0
    simp only [versionOf, tailBytes, typeMime_eq, typeUri_eq]
    by_cases h1 : t0 = mime
    · subst h1
      simp [Res.bind, h00, decoded, mime_ne]
    · by_cases h2 : t0 = uriType
      · subst h2
        simp [Res.bind, takeStr_str (hc2 _ _ rfl), decoded, mime_ne.symm]
      · simp [Res.bind, h1, h2, decoded]

theorem parses_entry {r : Nat × Info} (hc : CleanInfo r.2) (hid : r.1 < 65536) (hp : r.2.protection < 65536)
    (ht : ∀ t u, r.2.kind = .typed t u → t < 2 ^ 32) (hb : r.2.name.length + 1 + (tailBytes r.2.kind).length ≤ 4096) :
    Parses (getAtom parseMember) (layoutEntry r) (.infe (decoded r)) := by
  have hlen := length_entry r
  have htb : (typeBytes r.2.kind).length ≤ 4 := by cases r.2.kind <;> simp [typeBytes]
  unfold layoutEntry fullBox at hlen ⊢
  have h8 : (be 4 0).length = 4 := by simp
  generalize hpl : (be 1 (versionOf r.2.kind) ++ be 3 (if r.2.hidden then 1 else 0) ++ (be 2 r.1 ++ be 2 r.2.protection ++
    typeBytes r.2.kind ++ r.2.name ++ [0] ++ tailBytes r.2.kind)) = payload at *
  have hpay : payload.length = 8 + (typeBytes r.2.kind).length + r.2.name.length + 1 + (tailBytes r.2.kind).length := by
    simp [box] at hlen; omega
  refine parses_getAtom ?_ (by omega) (by decide) (by decide)
  unfold parseMember
  rw [if_pos (by rfl)]
  intro rest
  have key : ∀ N, N = 8 + payload.length → ParsesAt (parseEntry ⟨N, fcc 'i' 'n' 'f' 'e', [], 0, 8⟩) 8 payload (decoded r) := by
    intro N hN
    rw [← hpl]
    unfold parseEntry
    refine ParsesAt.bind ((parses_versionFlags (by cases r.2.kind <;> simp [versionOf]) (by split <;> omega)).at _) ?_
    have hv3 : versionOf r.2.kind ≠ 3 := by cases r.2.kind <;> simp [versionOf]
    simp only [hv3, if_false, List.append_assoc]
    refine ParsesAt.bind ((parses_get16' hid).at _) ?_
    refine ParsesAt.bind ((parses_get16' hp).at _) ?_
    have hit : Parses (if versionOf r.2.kind ≥ 2 then get32 else pure 0 : P Nat) (typeBytes r.2.kind)
        (match r.2.kind with | .typed t _ => t | _ => 0) := by
      cases hk : r.2.kind with
      | plain => exact parses_pure _
      | extension t d => exact parses_pure _
      | typed t u => exact parses_get32' (ht t u hk)
    refine ParsesAt.bind (hit.at _) ?_
    refine parsesAt_bytesRead ?_
    have hn : (r.2.name ++ ([0] ++ tailBytes r.2.kind)).length = r.2.name.length + 1 + (tailBytes r.2.kind).length := by
      simp; omega
    refine ParsesAt.bind_nil ((parses_getBytes (n := w32(N + (4294967296 - (8 + (be 1 (versionOf r.2.kind) ++
      be 3 (if r.2.hidden then 1 else 0)).length + (be 2 r.1).length + (be 2 r.2.protection).length + (typeBytes r.2.kind).length))))
      (bs := r.2.name ++ ([0] ++ tailBytes r.2.kind)) ?_).at _) ?_
    · rw [hn]
      simp only [List.length_append, be_length]
      omega
    · rw [if_neg (by rw [hn]; omega)]
      intro rest
      have := parseStrings_eq hc (match r.2.kind with | .typed t _ => t | _ => 0) rfl
      unfold P.lift
      rw [List.append_assoc] at this
      rw [this]
      rfl
  show (Member.infe <$> parseEntry _) _ = _
  have := key _ rfl rest
  show ((parseEntry _) >>= fun x => pure (Member.infe x)) _ = _
  rw [P.bind_apply, this]
  rfl

/-! ## The box -/

theorem entry_ge (r : Nat × Info) : 8 ≤ (layoutEntry r).length := by rw [length_entry]; omega

theorem parsesAt_loop {sz : Nat} (rs : List (Nat × Info)) : ∀ (acc : List Member) (fuel k : Nat), rs.length < fuel →
    (∀ r ∈ rs, Parses (getAtom parseMember) (layoutEntry r) (.infe (decoded r))) →
    k + (rs.flatMap layoutEntry).length = sz →
    ParsesAt (loop sz fuel acc) k (rs.flatMap layoutEntry) (acc ++ rs.map fun r => .infe (decoded r)) := by
  induction rs with
  | nil =>
    intro acc fuel k hf _ hk
    obtain ⟨f, rfl⟩ : ∃ f, fuel = f + 1 := ⟨fuel - 1, by simp at hf; omega⟩
    unfold loop
    refine parsesAt_bytesRead ?_
    rw [if_neg (by simp at hk; omega)]
    simpa using (parses_pure acc).at k
  | cons r rs ih =>
    intro acc fuel k hf h1 hk
    obtain ⟨f, rfl⟩ : ∃ f, fuel = f + 1 := ⟨fuel - 1, by simp at hf; omega⟩
    simp only [List.flatMap_cons, List.length_append] at hk ⊢
    have h8 := entry_ge r
    unfold loop
    refine parsesAt_bytesRead ?_
    rw [if_pos (by omega)]
    refine ParsesAt.bind ((h1 r (by simp)).at _) ?_
    have := ih (acc ++ [.infe (decoded r)]) f (k + (layoutEntry r).length) (by simp at hf; omega)
      (fun x hx => h1 x (by simp [hx])) (by omega)
    simpa using this

theorem length_le_flatMap (rs : List (Nat × Info)) : rs.length ≤ (rs.flatMap layoutEntry).length := by
  induction rs with
  | nil => simp
  | cons r rs ih =>
    have := entry_ge r
    simp only [List.length_cons, List.flatMap_cons, List.length_append]
    omega

theorem length_layout (rs : List (Nat × Info)) : (layout rs).length = 14 + (rs.flatMap layoutEntry).length := by
  simp [layout, fullBox, box]; omega

theorem parse_layout {rs : List (Nat × Info)} (hf : Fits rs) (hc : ∀ r ∈ rs, CleanInfo r.2) (rest : Bytes) :
    ∃ h, parseAtom parse (layout rs ++ rest) = .ok ((0, 0, rs.map fun r => .infe (decoded r)), h, rest) := by
  have hsz := hf.size
  rw [length_layout] at hsz
  have hpay : (be 1 0 ++ be 3 0 ++ (be 2 rs.length ++ rs.flatMap layoutEntry)).length = 6 + (rs.flatMap layoutEntry).length := by
    simp; omega
  have key : ∀ N, N = 14 + (rs.flatMap layoutEntry).length → ParsesAt (parse ⟨N, fcc 'i' 'i' 'n' 'f', [], 0, 8⟩) 8
      (be 1 0 ++ be 3 0 ++ (be 2 rs.length ++ rs.flatMap layoutEntry)) (0, 0, rs.map fun r => .infe (decoded r)) := by
    intro N hN
    unfold parse
    refine ParsesAt.bind ((parses_versionFlags (by omega) (by omega)).at _) ?_
    refine ParsesAt.bind ((parses_get16' hf.count).at _) ?_
    intro r
    have hl := length_le_flatMap rs
    have := parsesAt_loop (sz := N) rs [] ((rs.flatMap layoutEntry ++ r).length + 1) (8 + (be 1 0 ++ be 3 0).length + (be 2 rs.length).length)
      (by simp only [List.length_append]; omega)
      (fun x hx => parses_entry (hc x hx) (hf.id x hx) (hf.protection x hx) (hf.type x hx) (hf.buffer x hx))
      (by simp only [List.length_append, be_length]; omega) r
    simp only [P.bind_apply, P.available]
    rw [this]
    simp only [List.nil_append, P.bytesRead]
    rw [if_neg (by simp only [List.length_append, be_length]; omega)]
    simp [P.pure_apply]
  have := parseAtom_small (key (8 + (be 1 0 ++ be 3 0 ++ (be 2 rs.length ++ rs.flatMap layoutEntry)).length) (by omega)) rfl (by omega)
    (by decide) (by decide) rest
  exact ⟨_, this⟩

theorem memberSizes {es : List Entry} (hg : ∀ e ∈ es, Good True e) (hf : Fits (es.map fun e => (e.id, infoOf e))) :
    Movie.mapRes memberSize (es.map .infe) = .ok (es.map fun e => (layoutEntry (e.id, infoOf e)).length) := by
  have hsz := hf.size
  rw [length_layout] at hsz
  have h : ∀ e ∈ es, entrySize e = .ok (layoutEntry (e.id, infoOf e)).length := by
    intro e he
    refine entrySize_eq (hg e he) ?_ (fun t d hk => (hf.ext _ (List.mem_map.2 ⟨e, he, rfl⟩) t d hk).1)
    have : (layoutEntry (e.id, infoOf e)).length ≤ ((es.map fun e => (e.id, infoOf e)).flatMap layoutEntry).length := by
      obtain ⟨a, b, hab⟩ := List.append_of_mem (List.mem_map.2 ⟨e, he, rfl⟩ : (e.id, infoOf e) ∈ es.map fun e => (e.id, infoOf e))
      rw [hab]
      simp only [List.flatMap_append, List.flatMap_cons, List.length_append]
      omega
    omega
  clear hf hsz
  induction es with
  | nil => rfl
  | cons e es ih =>
    simp only [List.map_cons, Movie.mapRes, memberSize]
    rw [h e (by simp), ih (fun x hx => hg x (by simp [hx])) (fun x hx => h x (by simp [hx]))]
    rfl

theorem write_layout {es : List Entry} (hg : ∀ e ∈ es, Good True e) (hf : Fits (es.map fun e => (e.id, infoOf e))) :
    write 0 0 (es.map .infe) = .ok (layout (es.map fun e => (e.id, infoOf e))) := by
  have hsz := hf.size
  have hlen := length_layout (es.map fun e => (e.id, infoOf e))
  have hsum : (es.map fun e => (layoutEntry (e.id, infoOf e)).length).sum =
      ((es.map fun e => (e.id, infoOf e)).flatMap layoutEntry).length := by
    rw [List.length_flatMap, List.map_map]; rfl
  unfold write
  rw [memberSizes hg hf]
  simp only [Res.bind, hsum]
  have e1 : w32(12 + (if (0 : Nat) ≠ 0 then 4 else 2) + ((es.map fun e => (e.id, infoOf e)).flatMap layoutEntry).length) =
      (layout (es.map fun e => (e.id, infoOf e))).length := by
    rw [if_neg (by simp)]; omega
  rw [e1]
  generalize hn : (layout (es.map fun e => (e.id, infoOf e))).length = n at *
  have hz : (es.map Member.infe).zip (es.map fun e => (layoutEntry (e.id, infoOf e)).length) =
      es.map fun e => (Member.infe e, (layoutEntry (e.id, infoOf e)).length) := by
    induction es with
    | nil => rfl
    | cons e es ih => simp [List.zip_map', Function.comp_def]
  rw [hz]
  have hmem : ∀ e ∈ es, (layoutEntry (e.id, infoOf e)).length ≤ n := by
    intro e he
    obtain ⟨a, b, hab⟩ := List.append_of_mem (List.mem_map.2 ⟨e, he, rfl⟩ : (e.id, infoOf e) ∈ es.map fun e => (e.id, infoOf e))
    rw [hab] at hlen
    simp only [List.flatMap_append, List.flatMap_cons, List.length_append] at hlen
    omega
  have heach : Emits (W.each (fun p : Member × Nat => nested p.2 (putMember p.2 p.1))
      (es.map fun e => (Member.infe e, (layoutEntry (e.id, infoOf e)).length)))
      ((es.map fun e => (e.id, infoOf e)).flatMap layoutEntry) := by
    have h : ∀ e ∈ es, Emits (nested (layoutEntry (e.id, infoOf e)).length (putEntry (layoutEntry (e.id, infoOf e)).length e))
        (layoutEntry (e.id, infoOf e)) := by
      intro e he
      refine emits_nested (emits_entry (hg e he) (fun t d hk => (hf.ext _ (List.mem_map.2 ⟨e, he, rfl⟩) t d hk).1) rfl ?_) rfl
      have := hmem e he; omega
    clear hmem hz e1 hsum hn hlen hsz hf hg
    induction es with
    | nil => exact emits_skip
    | cons e es ih =>
      simp only [List.map_cons, W.each, List.flatMap_cons]
      exact (h e (by simp)).seq (ih fun x hx => h x (by simp [hx]))
  have hfull := (emits_serFull n typeIinf 0 0).then ((emits_put16 (es.map Member.infe).length).then heach.thenAssert)
  have e2 : layout (es.map fun e => (e.id, infoOf e)) = be 4 n ++ be 4 typeIinf ++ be 1 0 ++ be 3 0 ++
      (be 2 (es.map Member.infe).length ++ (es.map fun e => (e.id, infoOf e)).flatMap layoutEntry) := by
    have e3 : typeIinf = fcc 'i' 'i' 'n' 'f' := by decide
    have e4 : 8 + (be 1 0 ++ be 3 0 ++ (be 2 (es.map fun e => (e.id, infoOf e)).length ++
        (es.map fun e => (e.id, infoOf e)).flatMap layoutEntry)).length = n := by
      simp only [List.length_append, be_length]; omega
    unfold layout fullBox box
    rw [e4, e3]
    simp only [List.append_assoc, List.length_map]
  rw [if_pos trivial]
  rw [e2]
  refine EmitsFull.runW ?_ ?_ (by omega)
  · simpa only [List.append_assoc] using hfull
  · rw [← e2]; exact hn

/-! ## The answers after a file -/

theorem getEntry_decoded (rs : List (Nat × Info)) (id : Nat) :
    getEntry (rs.map fun r => .infe (decoded r)) id = (newest rs id).map fun i => decoded (id, i) := by
  have hid : ∀ r : Nat × Info, (decoded r).id = r.1 := by
    rintro ⟨id, n, p, k, h⟩; cases k <;> rfl
  have : (rs.map fun r => Member.infe (decoded r)) = (rs.map decoded).map .infe := by simp
  rw [this, getEntry_eq]
  unfold newest
  rw [← List.map_reverse, List.find?_map]
  have e : ((fun e : Entry => e.id == id) ∘ decoded) = fun r : Nat × Info => r.1 == id := by
    funext r; simp [hid]
  rw [e]
  cases hf : rs.reverse.find? fun r => r.1 == id with
  | none => rfl
  | some r =>
    have := List.find?_some hf
    simp only [beq_iff_eq] at this
    simp [← this]

theorem findName_eq (es : List Entry) (name : Bytes) (hg : ∀ e ∈ es, Str e.name) (hid : ∀ e ∈ es, e.id < 65536) :
    findName name (es.map .infe) = named (es.map fun e => (e.id, infoOf e)) name := by
  induction es with
  | nil => rfl
  | cons e es ih =>
    obtain ⟨n, hn, hn0⟩ := hg e (by simp)
    simp only [List.map_cons, findName, hn, sameStr, strlen_str hn0, Res.bind]
    have e1 : (infoOf e).name = n := by simp [infoOf, hn, str_some hn0]
    unfold named
    rw [List.find?_cons]
    simp only [e1]
    have e2 : (n ++ [0]).take n.length = n := List.take_left' rfl
    rw [e2]
    by_cases h : n = name
    · have := hid e (by simp)
      simp [h, Nat.mod_eq_of_lt this]
    · have hb : (n == name) = false := by simpa using h
      simp only [h, decide_false, hb]
      rw [ih (fun x hx => hg x (by simp [hx])) (fun x hx => hid x (by simp [hx]))]
      rfl

theorem swap_swap {t : Nat} (h : t < 2 ^ 32) : swap (swap t) = t := by
  have e : (be 4 t).reverse = be 4 (swap t) := by
    unfold swap
    have := be_unbe (be 4 t).reverse
    simp only [List.length_reverse, be_length] at this
    exact this.symm
  unfold swap at e ⊢
  rw [← e, List.reverse_reverse, unbe_be]
  omega

/-- **C59, in a file.** After any sequence of calls that does not give content types or encodings, the `iinf`
box is written as specified; reading it gives a box with the same answers about every item, except that the
bytes of extension types are reversed, and that URIs are kept only for items of type `uri `. Items are also
found by their names.

Missing for the full claim: content types and encodings (`c59_not_content`), extension types
(`c59_not_extension_type`, `c59_not_extension_zero`), long names (`c59_not_long`), more than 65535 entries.
A name is looked up in all records, also in those that were replaced (`c59_not_renamed`). -/
theorem c59_file_partial (primary : Nat) (calls : List Call) (hc : ∀ c ∈ calls, c.Clean) (hb : ∀ c ∈ calls, c.Bare)
    (hf : Fits (records primary calls)) (hne : records primary calls ≠ []) :
    ∃ l, run primary calls none = .ok (some l) ∧ write 0 0 l = .ok (layout (records primary calls)) ∧
      (∀ name, findByName (some l) name = named (records primary calls) name) ∧
      ∀ rest, ∃ l' h, parseAtom parse (layout (records primary calls) ++ rest) = .ok ((0, 0, l'), h, rest) ∧
        (∀ name, findByName (some l') name = named (records primary calls) name) ∧
        ∀ id, getExtension (some l') id = storedExtension (known primary calls id) ∧
          getType (some l') id = storedType (known primary calls id) ∧
          isHidden (some l') id = hiddenAnswer (known primary calls id) := by
  obtain ⟨s, h1, h2⟩ := run_holds (bare := True) primary calls (.inl ⟨rfl, rfl⟩) hc fun _ => hb
  change Holds True s (records primary calls) at h2
  rcases h2 with ⟨-, h2⟩ | ⟨es, rfl, h2⟩
  · exact absurd h2 hne
  have hr := h2.records
  have hclean : ∀ r ∈ records primary calls, CleanInfo r.2 := by
    intro r hr'
    rw [hr] at hr'
    obtain ⟨e, he, rfl⟩ := List.mem_map.1 hr'
    obtain ⟨n, hn, hn0⟩ := (h2.good e he).name
    refine ⟨by simpa [infoOf, hn, str_some hn0] using hn0, ?_⟩
    intro t u hk
    rcases kind_cases (h2.good e he) with ⟨-, hk'⟩ | ⟨x, -, -, hk'⟩ | ⟨u', -, -, hu', hk'⟩
    · exact absurd (hk'.symm.trans hk) (by simp)
    · exact absurd (hk'.symm.trans hk) (by simp)
    · have := hk'.symm.trans hk
      injection this with _ h
      rwa [← h]
  have hdec : ∀ r ∈ records primary calls, infoOf (decoded r) = { r.2 with kind := match r.2.kind with
      | .extension t d => .extension (swap t) d
      | .typed t u => .typed t (if t = uriType then u else [])
      | k => k } ∧ (decoded r).id = r.1 ∧ Str (decoded r).name := by
    rintro ⟨id, n, p, k, hd⟩ hr'
    obtain ⟨c1, c2⟩ := hclean _ hr'
    have hfl : ((if hd = true then 1 else 0) % 2 = 1) = (hd = true) := by cases hd <;> simp
    cases k with
    | plain => exact ⟨by simp [decoded, infoOf, kindOf, str_some c1, hfl], rfl, n, rfl, c1⟩
    | extension t d => exact ⟨by simp [decoded, infoOf, kindOf, str_some c1, hfl], rfl, n, rfl, c1⟩
    | typed t u =>
      refine ⟨?_, rfl, n, rfl, c1⟩
      simp only [decoded, infoOf, kindOf, str_some c1, hfl, Bool.decide_eq_true]
      by_cases ht : t = uriType
      · simp [ht, str_some (c2 _ _ rfl)]
      · simp [ht, str]
  refine ⟨_, h1, ?_, ?_, ?_⟩
  · rw [hr]; exact write_layout h2.good (hr ▸ hf)
  · intro name
    unfold findByName
    simp only
    rw [findName_eq es name (fun e he => (h2.good e he).name), ← hr]
    intro e he
    exact hf.id (e.id, infoOf e) (by rw [hr]; exact List.mem_map.2 ⟨e, he, rfl⟩)
  · intro rest
    obtain ⟨h, hp⟩ := parse_layout hf hclean rest
    refine ⟨_, h, hp, ?_, ?_⟩
    · intro name
      have e0 : ((records primary calls).map fun r => Member.infe (decoded r)) = ((records primary calls).map decoded).map .infe := by
        simp
      unfold findByName
      simp only
      rw [e0, findName_eq _ name]
      · unfold named
        rw [List.map_map, List.find?_map]
        have : ∀ l : List (Nat × Info), (∀ r ∈ l, r ∈ records primary calls) →
            (match Option.map ((fun e => (e.id, infoOf e)) ∘ decoded) (l.find? ((fun r => r.2.name == name) ∘ (fun e => (e.id, infoOf e)) ∘ decoded)) with
              | some r => Res.ok r.1
              | none => .err .notFound) =
            match l.find? fun r => r.2.name == name with
              | some r => Res.ok r.1
              | none => .err .notFound := by
          intro l hl
          induction l with
          | nil => rfl
          | cons r l ih =>
            obtain ⟨d1, d2, -⟩ := hdec r (hl r (by simp))
            rw [List.find?_cons, List.find?_cons]
            have e1 : ((fun r : Nat × Info => r.2.name == name) ∘ (fun e => (e.id, infoOf e)) ∘ decoded) r = (r.2.name == name) := by
              simp only [Function.comp_apply, d1]
            rw [e1]
            cases hn : r.2.name == name with
            | true => simp [d2]
            | false => exact ih fun x hx => hl x (by simp [hx])
        exact this _ fun _ h => h
      · intro e he
        obtain ⟨r, hr', rfl⟩ := List.mem_map.1 he
        exact (hdec r hr').2.2
      · intro e he
        obtain ⟨r, hr', rfl⟩ := List.mem_map.1 he
        rw [(hdec r hr').2.1]; exact hf.id r hr'
    · intro id
      rw [← known_eq]
      unfold getExtension getType isHidden entryOf
      simp only [getEntry_decoded]
      cases hn : newest (records primary calls) id with
      | none => exact ⟨rfl, rfl, rfl⟩
      | some i =>
        have hmem : (id, i) ∈ records primary calls := by
          unfold newest at hn
          obtain ⟨r, hr1, hr2⟩ := Option.map_eq_some_iff.1 hn
          have e1 := List.mem_of_find?_eq_some hr1
          have e2 := List.find?_some hr1
          simp only [beq_iff_eq] at e2
          rw [← hr2, ← e2]
          simpa using e1
        obtain ⟨c1, c2⟩ := hclean _ hmem
        obtain ⟨n, p, k, hd⟩ := i
        have hfl : ((if hd = true then 1 else 0) % 2 = 1) = (hd = true) := by cases hd <;> simp
        cases k with
        | plain => simp [Res.bind, decoded, storedExtension, storedType, hiddenAnswer, hfl]
        | extension t d => simp [Res.bind, decoded, storedExtension, storedType, hiddenAnswer, hfl]
        | typed t u =>
          simp only [Option.map_some, Res.bind, decoded, storedExtension, storedType, hiddenAnswer, hfl]
          by_cases ht : t = uriType
          · simp [ht, strlen_str (c2 _ _ rfl), Res.bind]
          · simp [ht]

/-! ## Entries with content types -/

/-- An entry of another writer, of version 0 or of version 2 and type `mime`, with content type and encoding. -/
def mimeEntry (typed : Bool) (flags id p : Nat) (name type enc : Bytes) : Entry :=
  ⟨if typed then 2 else 0, flags, id, p, some (name ++ [0]), some (type ++ [0]), some (enc ++ [0]), 0, none, if typed then mime else 0, none⟩

theorem parses_member {N k : Nat} {bs : Bytes} {e : Entry} (h : ParsesAt (parseEntry ⟨N, fcc 'i' 'n' 'f' 'e', [], 0, 8⟩) k bs e) :
    ParsesAt (parseMember ⟨N, fcc 'i' 'n' 'f' 'e', [], 0, 8⟩) k bs (.infe e) := by
  intro r
  unfold parseMember
  rw [if_pos (by rfl)]
  show ((parseEntry _) >>= fun x => pure (Member.infe x)) _ = _
  rw [P.bind_apply, h]
  rfl

/-- Content types and encodings in a file are read, in this order, and written again. -/
theorem c59_content_read (typed : Bool) (flags id p : Nat) (name type enc : Bytes) (hf : flags < 2 ^ 24) (hid : id < 65536)
    (hp : p < 65536) (hn : 0 ∉ name) (ht : 0 ∉ type) (he : 0 ∉ enc) (hb : name.length + type.length + enc.length + 3 ≤ 4096) :
    writeEntry (mimeEntry typed flags id p name type enc) = .ok (mimeBytes typed flags id p name type enc) ∧
    ∀ rest, ∃ h, parseAtom parseMember (mimeBytes typed flags id p name type enc ++ rest) =
      .ok (.infe (mimeEntry typed flags id p name type enc), h, rest) := by
  have hm1 : mime = typeMime := by decide
  have hm2 : mime < 2 ^ 32 := by decide
  have hlen : (mimeBytes typed flags id p name type enc).length =
      16 + (if typed then 4 else 0) + (name.length + type.length + enc.length + 3) := by
    unfold mimeBytes fullBox box
    cases typed <;> simp <;> omega
  have hte : Parses (if (if typed then 2 else 0) ≥ 2 then get32 else pure 0 : P Nat) (if typed then be 4 mime else []) (if typed then mime else 0) := by
    cases typed
    · exact parses_pure _
    · exact parses_get32' hm2
  constructor
  · have hs : entrySize (mimeEntry typed flags id p name type enc) = .ok (mimeBytes typed flags id p name type enc).length := by
      rw [hlen]
      unfold entrySize mimeEntry
      cases typed
      · simp [strSize_str hn, strSize_str ht, strSize_str he, Res.bind]; omega
      · simp [strSize_str hn, strSize_str ht, strSize_str he, Res.bind, hm1]; omega
    unfold writeEntry
    rw [hs]
    show runW _ _ = _
    generalize hN : (mimeBytes typed flags id p name type enc).length = n at *
    have e : mimeBytes typed flags id p name type enc = be 4 n ++ be 4 typeInfe ++ be 1 (if typed then 2 else 0) ++ be 3 flags ++ (be 2 id ++
        (be 2 p ++ ((if typed then be 4 mime else []) ++ ((name ++ [0]) ++ (((type ++ [0]) ++ (enc ++ [0])) ++ []))))) := by
      unfold mimeBytes fullBox box at hN ⊢
      have e3 : typeInfe = fcc 'i' 'n' 'f' 'e' := by decide
      rw [e3]
      generalize hpl : be 1 (if typed then 2 else 0) ++ be 3 flags ++ (be 2 id ++ be 2 p ++ (if typed then be 4 mime else []) ++
        name ++ [0] ++ type ++ [0] ++ enc ++ [0]) = payload at *
      have : 8 + payload.length = n := by simp at hN; omega
      rw [this, ← hpl]
      simp only [List.append_assoc, List.append_nil]
    have key : EmitsFull (putEntry n (mimeEntry typed flags id p name type enc)) (be 4 n ++ be 4 typeInfe ++ be 1 (if typed then 2 else 0) ++ be 3 flags ++ (be 2 id ++
        (be 2 p ++ ((if typed then be 4 mime else []) ++ ((name ++ [0]) ++ (((type ++ [0]) ++ (enc ++ [0])) ++ [])))))) := by
      have hty : Emits (if (if typed then 2 else 0) ≥ 2 then put32 (if typed then mime else 0) else W.skip) (if typed then be 4 mime else []) := by
        cases typed
        · exact emits_skip
        · exact emits_put32 _
      have hfull := (emits_serFull n typeInfe (if typed then 2 else 0) flags).then ((emits_put16 id).then ((emits_put16 p).then
        (hty.then ((emits_str hn).then (((emits_str ht).seq (emits_str he)).then emits_skip.thenAssert)))))
      unfold putEntry
      have e1 : (mimeEntry typed flags id p name type enc).version ≠ 3 := by cases typed <;> simp [mimeEntry]
      have e2 : (mimeEntry typed flags id p name type enc).version < 2 ∨ (mimeEntry typed flags id p name type enc).itemType = typeMime := by
        cases typed
        · left; simp [mimeEntry]
        · right; exact hm1
      have e3 : (mimeEntry typed flags id p name type enc).version ≠ 1 := by cases typed <;> simp [mimeEntry]
      rw [if_neg e1, if_pos e2, if_neg e3]
      exact hfull
    rw [e]
    refine key.runW ?_ (by split at hlen <;> omega)
    rw [← e]; exact hN
  · intro rest
    have key : ∀ N, N = (mimeBytes typed flags id p name type enc).length → ParsesAt (parseEntry ⟨N, fcc 'i' 'n' 'f' 'e', [], 0, 8⟩) 8
        (be 1 (if typed then 2 else 0) ++ be 3 flags ++ (be 2 id ++ (be 2 p ++ ((if typed then be 4 mime else []) ++
          (name ++ 0 :: (type ++ 0 :: (enc ++ 0 :: []))))))) (mimeEntry typed flags id p name type enc) := by
      intro N hN
      unfold parseEntry
      refine ParsesAt.bind ((parses_versionFlags (by split <;> omega) (by omega)).at _) ?_
      have hv3 : (if typed then 2 else 0) ≠ 3 := by cases typed <;> simp
      simp only [hv3, if_false]
      refine ParsesAt.bind ((parses_get16' hid).at _) ?_
      refine ParsesAt.bind ((parses_get16' hp).at _) ?_
      refine ParsesAt.bind (hte.at _) ?_
      refine parsesAt_bytesRead ?_
      have hl : (name ++ 0 :: (type ++ 0 :: (enc ++ 0 :: []))).length = name.length + type.length + enc.length + 3 := by
        simp only [List.length_append, List.length_cons, List.length_nil]; omega
      refine ParsesAt.bind_nil ((parses_getBytes (bs := name ++ 0 :: (type ++ 0 :: (enc ++ 0 :: []))) ?_).at _) ?_
      · rw [hl, hN, hlen]
        cases typed <;> simp only [List.length_append, be_length, List.length_nil, if_true, Bool.false_eq_true, if_false] <;> omega
      · rw [if_neg (by rw [hl]; omega)]
        intro rest
        unfold P.lift parseStrings
        rw [takeStr_str hn]
        simp only [Res.bind]
        rw [if_pos (by cases typed <;> simp [hm1]), takeStr_str ht]
        simp only []
        rw [takeStr_str he]
        cases typed <;> rfl
    have e : mimeBytes typed flags id p name type enc = be 4 (mimeBytes typed flags id p name type enc).length ++ be 4 (fcc 'i' 'n' 'f' 'e') ++
        (be 1 (if typed then 2 else 0) ++ be 3 flags ++ (be 2 id ++ (be 2 p ++ ((if typed then be 4 mime else []) ++
          (name ++ 0 :: (type ++ 0 :: (enc ++ 0 :: [])))))))  := by
      rw [hlen]
      unfold mimeBytes fullBox box
      have : 8 + (be 1 (if typed then 2 else 0) ++ be 3 flags ++ (be 2 id ++ be 2 p ++ (if typed then be 4 mime else []) ++
        name ++ [0] ++ type ++ [0] ++ enc ++ [0])).length = 16 + (if typed then 4 else 0) + (name.length + type.length + enc.length + 3) := by
        cases typed <;> simp <;> omega
      rw [this]
      simp only [List.append_assoc, List.cons_append, List.nil_append]
    have hk := fun N hN => parses_member (key N hN)
    have hl2 : 8 + (be 1 (if typed then 2 else 0) ++ be 3 flags ++ (be 2 id ++ (be 2 p ++ ((if typed then be 4 mime else []) ++
          (name ++ 0 :: (type ++ 0 :: (enc ++ 0 :: []))))))).length = (mimeBytes typed flags id p name type enc).length := by
      have := congrArg List.length e
      simp only [List.length_append, be_length] at this ⊢
      omega
    have := parseAtom_small (hk _ rfl) hl2.symm (by split at hlen <;> omega) (by decide) (by decide) rest
    rw [← e] at this
    exact ⟨_, this⟩

/-- `text/xml`, encoded, of a hidden item. -/
example : ∀ rest, ∃ h, parseAtom parseMember (mimeBytes true 1 5 0 [0x61] [0x74, 0x65, 0x78, 0x74, 0x2f, 0x78, 0x6d, 0x6c] [0x67, 0x7a] ++ rest) =
    .ok (.infe (mimeEntry true 1 5 0 [0x61] [0x74, 0x65, 0x78, 0x74, 0x2f, 0x78, 0x6d, 0x6c] [0x67, 0x7a]), h, rest) :=
  (c59_content_read true 1 5 0 _ _ _ (by decide) (by decide) (by decide) (by decide) (by decide) (by decide) (by decide)).2

/-! ## A case -/

namespace Example

/-- Two items get names and types; the first then gets an extension in place of its type and is hidden, and the
second is given new information. The primary item is not hidden. -/
def calls : List Call :=
  [.set 1 0 (some [0x61, 0x62]) none none, .set 2 7 (some [0x63]) none none, .type 1 (fcc 'u' 'r' 'i' ' ') (some [0x78]),
   .type 2 (fcc 'E' 'x' 'i' 'f') none, .hide 1, .hide 2, .set 3 0 none none none, .extend 3 [1, 2, 3] (fcc 'f' 'd' 'e' 'l'),
   .set 2 8 (some [0x64, 0x65]) none none]

theorem clean : ∀ c ∈ calls, c.Clean := by
  simp [calls, Call.Clean, Iinf.Clean]

theorem bare : ∀ c ∈ calls, c.Bare := by
  simp [calls, Call.Bare]

theorem fits : Fits (records 2 calls) := by
  refine ⟨by decide, by decide, by decide, ?_, ?_, by decide, by decide⟩
  · intro r hr t u hk
    have e : records 2 calls = [(1, ⟨[0x61, 0x62], 0, .typed (fcc 'u' 'r' 'i' ' ') [0x78], true⟩),
      (2, ⟨[0x63], 7, .typed (fcc 'E' 'x' 'i' 'f') [], false⟩), (3, ⟨[], 0, .extension (fcc 'f' 'd' 'e' 'l') [1, 2, 3], false⟩),
      (2, ⟨[0x64, 0x65], 8, .plain, false⟩)] := by decide
    rw [e] at hr
    simp only [List.mem_cons, List.not_mem_nil, or_false] at hr
    rcases hr with rfl | rfl | rfl | rfl <;> cases hk <;> decide
  · intro r hr t u hk
    have e : records 2 calls = [(1, ⟨[0x61, 0x62], 0, .typed (fcc 'u' 'r' 'i' ' ') [0x78], true⟩),
      (2, ⟨[0x63], 7, .typed (fcc 'E' 'x' 'i' 'f') [], false⟩), (3, ⟨[], 0, .extension (fcc 'f' 'd' 'e' 'l') [1, 2, 3], false⟩),
      (2, ⟨[0x64, 0x65], 8, .plain, false⟩)] := by decide
    rw [e] at hr
    simp only [List.mem_cons, List.not_mem_nil, or_false] at hr
    rcases hr with rfl | rfl | rfl | rfl <;> cases hk <;> decide

/-- What comes back from the file about the items. -/
example : ∃ l bytes l' h, run 2 calls none = .ok (some l) ∧ write 0 0 l = .ok bytes ∧
    parseAtom parse (bytes ++ [9]) = .ok ((0, 0, l'), h, [9]) ∧
    getType (some l') 1 = .ok (fcc 'u' 'r' 'i' ' ', some [0x78]) ∧ isHidden (some l') 1 = .ok true ∧
    isHidden (some l') 2 = .ok false ∧ getType (some l') 2 = .err .invalidMedia ∧
    findByName (some l') [0x64, 0x65] = .ok 2 := by
  obtain ⟨l, h1, h2, h3, h4⟩ := c59_file_partial 2 calls clean bare fits (by decide)
  obtain ⟨l', h, h5, h6, h7⟩ := h4 [9]
  refine ⟨l, _, l', h, h1, h2, h5, ?_, ?_, ?_, ?_, ?_⟩
  · rw [(h7 1).2.1]; decide +kernel
  · rw [(h7 1).2.2]; decide +kernel
  · rw [(h7 2).2.2]; decide +kernel
  · rw [(h7 2).2.1]; decide +kernel
  · rw [h6]; decide +kernel

end Example

/-! ## What does not come back -/

/-- The type of an extension comes back with its bytes reversed. -/
theorem c59_not_extension_type : ∃ l bytes l' h, run 2 Example.calls none = .ok (some l) ∧ write 0 0 l = .ok bytes ∧
    parseAtom parse bytes = .ok ((0, 0, l'), h, []) ∧
    getExtension (some l) 3 = .ok ([1, 2, 3], fcc 'f' 'd' 'e' 'l') ∧
    getExtension (some l') 3 = .ok ([1, 2, 3], fcc 'l' 'e' 'd' 'f') := by
  obtain ⟨l, h1, h2, h3, h4⟩ := c59_file_partial 2 Example.calls Example.clean Example.bare Example.fits (by decide)
  obtain ⟨l', h, h5, h6, h7⟩ := h4 []
  obtain ⟨s, e1, e2⟩ := c59_answers 2 Example.calls Example.clean
  rw [h1] at e1
  injection e1 with e1
  refine ⟨l, _, l', h, h1, h2, by simpa using h5, ?_, ?_⟩
  · rw [e1, (e2 3).1]; decide
  · rw [(h7 3).1]; decide

/-- An extension of type 0 with two bytes is written, and reading the file goes wrong. -/
theorem c59_not_extension_zero :
    ((run 2 [.set 3 0 none none none, .extend 3 [1, 2] 0] none).bind fun s => (write 0 0 (s.getD [])).bind fun bytes =>
      .ok bytes.length) = .ok 35 ∧
    ((run 2 [.set 3 0 none none none, .extend 3 [1, 2] 0] none).bind fun s => (write 0 0 (s.getD [])).bind fun bytes =>
      (parseAtom parse bytes).bind fun x => .ok x.1.2.2) = .ub := by
  constructor <;> decide +kernel

theorem size_ne_err (m : Member) : (∃ n, memberSize m = .ok n) ∨ memberSize m = .ub := by
  have hl : ∀ b, (∃ n, strlen b = .ok n) ∨ strlen b = .ub := by
    intro b
    unfold strlen
    split
    · exact .inl ⟨_, rfl⟩
    · exact .inr rfl
  have hs : ∀ o, (∃ n, strSize o = .ok n) ∨ strSize o = .ub := by
    intro o
    cases o with
    | none => exact .inl ⟨0, rfl⟩
    | some b => exact hl b
  cases m with
  | other t d => exact .inl ⟨_, rfl⟩
  | infe e =>
    simp only [memberSize]
    unfold entrySize
    rcases hs e.name with ⟨a, ha⟩ | ha <;> rcases hs e.contentType with ⟨b, hb⟩ | hb <;>
      rcases hs e.contentEncoding with ⟨c, hc⟩ | hc <;> rcases hs e.uri with ⟨d, hd⟩ | hd <;>
      simp only [ha, hb, hc, hd, Res.bind] <;> by_cases h1 : e.version = 0 ∨ e.version = 1 <;> by_cases h2 : 2 ≤ e.version <;>
      by_cases h3 : e.itemType = typeMime <;> by_cases h4 : e.itemType = typeUri <;> simp only [h1, h2, h3, h4, if_true, if_false] <;>
      first | exact .inl ⟨_, rfl⟩ | exact .inr rfl | exact .inr trivial

theorem mapRes_ub {l : List Member} (h : ∃ m ∈ l, memberSize m = .ub) : Movie.mapRes memberSize l = .ub := by
  induction l with
  | nil => simp at h
  | cons m l ih =>
    simp only [Movie.mapRes]
    rcases size_ne_err m with ⟨n, hn⟩ | hn
    · have : ∃ m ∈ l, memberSize m = .ub := by
        obtain ⟨x, hx, h'⟩ := h
        rcases List.mem_cons.1 hx with rfl | hx
        · rw [hn] at h'; cases h'
        · exact ⟨x, hx, h'⟩
      rw [hn, ih this]; rfl
    · rw [hn]; rfl

/-- When an item was given a content type, the box cannot be written: the string in memory has no terminator.
The same holds for a content encoding. -/
theorem c59_not_content (s : S) (id p : Nat) (name : Option Bytes) (hn : Clean name) (t e : Option Bytes) (ht : Clean t)
    (he : Clean e) (h : t ≠ none ∨ e ≠ none) (version flags : Nat) :
    write version flags ((setInfo s id p name t e).getD []) = .ub := by
  unfold write
  rw [mapRes_ub]
  · rfl
  refine ⟨_, by simp only [setInfo, Option.getD_some]; exact List.mem_append_right _ (List.mem_singleton.2 rfl), ?_⟩
  have hname : strSize (some (copyStr name)) = .ok (name.getD []).length := by
    cases name with
    | none => rfl
    | some n => exact strSize_str hn
  have h0 : strSize (some [0]) = .ok 0 := rfl
  have hs : ∀ t, Clean (some t) → strSize (some t) = .ub := fun t h => strlen_none h
  simp only [memberSize, entrySize, hname, Res.bind]
  cases t with
  | some t => simp [copyShort, hs t ht]
  | none =>
    cases e with
    | some e => simp [copyShort, hs e he, h0]
    | none => simp at h

/-- The reader goes wrong on the bytes. -/
def Breaks {α : Type} (p : P α) (k : Nat) (bs : Bytes) : Prop := ∀ r : Bytes, p ⟨bs ++ r, k⟩ = .ub

theorem Breaks.bind {α β : Type} {p : P α} {f : α → P β} {k : Nat} {bs cs : Bytes} {v : α} (h : ParsesAt p k bs v)
    (h' : Breaks (f v) (k + bs.length) cs) : Breaks (p >>= f) k (bs ++ cs) := by
  intro r
  rw [List.append_assoc, P.bind_apply, h]
  exact h' r

theorem Breaks.first {α β : Type} {p : P α} {f : α → P β} {k : Nat} {bs : Bytes} (h : Breaks p k bs) : Breaks (p >>= f) k bs := by
  intro r
  rw [P.bind_apply, h]

theorem Breaks.pure {α β : Type} {f : α → P β} {k : Nat} {bs : Bytes} {v : α} (h' : Breaks (f v) k bs) :
    Breaks ((Pure.pure v : P α) >>= f) k bs := h'

theorem Breaks.read {β : Type} {f : Nat → P β} {k : Nat} {bs : Bytes} (h' : Breaks (f k) k bs) :
    Breaks (P.bytesRead >>= f) k bs := h'

theorem parseEntry_long (id : Nat) (hid : id < 65536) (name : Bytes) (hl : 4096 ≤ name.length) (hl' : name.length < 2 ^ 31)
    (N t : Nat) (hN : N = 19 + name.length) : Breaks (parseEntry ⟨N, t, [], 0, 8⟩) 8
      (be 1 0 ++ be 3 0 ++ (be 2 id ++ (be 2 0 ++ (name ++ [0, 0, 0] ++ [])))) := by
  unfold parseEntry
  refine Breaks.bind ((parses_versionFlags (v := 0) (f := 0) (by omega) (by omega)).at _) ?_
  simp only [show ((0 : Nat) = 3) = False from by simp, if_false, show ((0 : Nat) ≥ 2) = False from by simp]
  refine Breaks.bind ((parses_get16' hid).at _) ?_
  refine Breaks.bind ((parses_get16' (by omega)).at _) ?_
  refine Breaks.pure ?_
  refine Breaks.read ?_
  generalize hk : 8 + (be 1 0 ++ be 3 0).length + (be 2 id).length + (be 2 0).length = k
  have hk' : k = 16 := by rw [← hk]; simp only [List.length_append, be_length]
  refine Breaks.bind ((parses_getBytes ?_).at _) ?_
  · simp only [List.length_append, List.length_cons, List.length_nil]
    omega
  · have : (name ++ [0, 0, 0]).length > 4096 := by simp only [List.length_append, List.length_cons, List.length_nil]; omega
    rw [if_pos this]
    intro r
    rfl

theorem parseAtom_breaks {α : Type} {body : Hdr → P α} {size type : Nat} {payload : Bytes}
    (hb : Breaks (body ⟨size, type, [], 0, 8⟩) 8 payload) (hlen : size = 8 + payload.length) (hs : size < 4294967296)
    (ht : type < 4294967296) (hu : type ≠ typeUuid) (rest : Bytes) :
    parseAtom body (((be 4 size ++ be 4 type) ++ payload) ++ rest) = .ub := by
  unfold parseAtom
  rw [List.append_assoc, parseHeader_small hs (by omega) ht hu _ (by simp; omega)]
  simp only [hb rest]

theorem parseAtom_long (id : Nat) (hid : id < 65536) (name : Bytes) (hl : 4096 ≤ name.length) (hl' : name.length < 2 ^ 31) (rest : Bytes) :
    parseAtom parseMember (layoutEntry (id, ⟨name, 0, .plain, false⟩) ++ rest) = .ub := by
  unfold layoutEntry fullBox box
  have e : (be 1 (versionOf Kind.plain) ++ be 3 (if false = true then 1 else 0) ++ (be 2 id ++ be 2 0 ++
      typeBytes Kind.plain ++ name ++ [0] ++ tailBytes Kind.plain)) =
      be 1 0 ++ be 3 0 ++ (be 2 id ++ (be 2 0 ++ (name ++ [0, 0, 0] ++ []))) := by
    simp [typeBytes, tailBytes, versionOf]
  simp only [] at e ⊢
  rw [e]
  have hp : (be 1 0 ++ be 3 0 ++ (be 2 id ++ (be 2 0 ++ (name ++ [0, 0, 0] ++ [])))).length = 11 + name.length := by
    simp; omega
  have hty : fcc 'i' 'n' 'f' 'e' = typeInfe := by decide
  have hb : ∀ N, N = 19 + name.length → Breaks (parseMember ⟨N, fcc 'i' 'n' 'f' 'e', [], 0, 8⟩) 8
      (be 1 0 ++ be 3 0 ++ (be 2 id ++ (be 2 0 ++ (name ++ [0, 0, 0] ++ [])))) := by
    intro N hN
    unfold parseMember
    rw [if_pos hty]
    exact Breaks.first (parseEntry_long id hid name hl hl' N _ hN)
  generalize (be 1 0 ++ be 3 0 ++ (be 2 id ++ (be 2 0 ++ (name ++ [0, 0, 0] ++ [])))) = payload at *
  exact parseAtom_breaks (hb _ (by omega)) rfl (by omega) (by decide) (by decide) rest

/-- A name of 4096 bytes or more is set and its entry written, but reading the entry writes behind a buffer. -/
theorem c59_not_long (id : Nat) (hid : id < 65536) (name : Bytes) (hc : 0 ∉ name) (hl : 4096 ≤ name.length) (hl' : name.length < 2 ^ 31) :
    ∃ e bytes, setInfo none id 0 (some name) none none = some [.infe e] ∧ writeEntry e = .ok bytes ∧
      ∀ rest, parseAtom parseMember (bytes ++ rest) = .ub := by
  have hg : Good True ⟨0, 0, id, 0, some (name ++ [0]), some [0], some [0], 0, none, 0, none⟩ := by
    refine ⟨⟨name, rfl, hc⟩, ?_, ?_, ?_, ?_, ?_⟩ <;> simp
  have hi : infoOf ⟨0, 0, id, 0, some (name ++ [0]), some [0], some [0], 0, none, 0, none⟩ = ⟨name, 0, .plain, false⟩ := by
    simp [infoOf, kindOf, str_some hc]
  have hlen := length_entry (id, ⟨name, 0, .plain, false⟩)
  simp only [typeBytes, tailBytes, List.length_nil, List.length_cons] at hlen
  refine ⟨_, layoutEntry (id, ⟨name, 0, .plain, false⟩), rfl, ?_, parseAtom_long id hid name hl hl'⟩
  unfold writeEntry
  have h1 := entrySize_eq hg (by rw [hi]; simp only []; omega) (by simp [kindOf])
  have h2 := emits_entry hg (by simp [kindOf]) rfl (by rw [hi]; simp only []; omega)
  rw [hi] at h1 h2
  simp only [copyStr, copyShort]
  rw [h1]
  exact h2

/-- An item that got a new name is still found by the old one. -/
theorem c59_not_renamed :
    (known 9 [.set 1 0 (some [0x61]) none none, .set 1 0 (some [0x62]) none none] 1).map Info.name = some [0x62] ∧
    ((run 9 [.set 1 0 (some [0x61]) none none, .set 1 0 (some [0x62]) none none] none).bind fun s => findByName s [0x61]) =
      .ok 1 := by
  decide

end Verif.Iinf
