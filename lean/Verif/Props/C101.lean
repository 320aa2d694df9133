import Verif.Props.C59
import Verif.Spec.ItemAsk

/-!
# C101: what is told about items
-/

namespace Verif.Iinf

/-! ## Records and calls -/

theorem amendLast_ids (id : Nat) (f : Info → Info) (l : List (Nat × Info)) :
    (amendLast id f l).map Prod.fst = l.map Prod.fst := by
  induction l with
  | nil => rfl
  | cons r l ih =>
    unfold amendLast
    split
    · rename_i h; simp [h.1]
    · simp [ih]

theorem records_ids (primary : Nat) (calls : List Call) : (records primary calls).map Prod.fst = setItems calls := by
  have : ∀ l, (calls.foldl (record primary) l).map Prod.fst = l.map Prod.fst ++ setItems calls := by
    induction calls with
    | nil => intro l; simp [setItems]
    | cons c cs ih =>
      intro l
      rw [List.foldl_cons, ih]
      cases c with
      | set => simp [record, setItems]
      | extend => simp [record, setItems, amendLast_ids]
      | type => simp [record, setItems, amendLast_ids]
      | hide id =>
        simp only [record]
        split <;> simp [setItems, amendLast_ids]
  simpa [records] using this []

/-- The oldest record of an item. -/
def oldest (rs : List (Nat × Info)) (id : Nat) : Option Info := (rs.find? fun r => r.1 == id).map Prod.snd

theorem oldest_newest {rs : List (Nat × Info)} (h : (rs.map Prod.fst).Nodup) (id : Nat) : oldest rs id = newest rs id := by
  induction rs with
  | nil => rfl
  | cons r rs ih =>
    rw [List.map_cons, List.nodup_cons] at h
    rw [newest_cons, ← ih h.2]
    unfold oldest
    rw [List.find?_cons]
    by_cases hr : r.1 = id
    · have : rs.find? (fun r => r.1 == id) = none := by
        rw [List.find?_eq_none]
        intro x hx
        simp only [beq_iff_eq]
        intro e
        exact h.1 (List.mem_map.2 ⟨x, hx, e.trans hr.symm⟩)
      simp [hr, this]
    · simp only [hr, beq_eq_false_iff_ne.2 hr, if_false]
      cases (rs.find? fun r => r.1 == id) <;> rfl

theorem oldest_mem {rs : List (Nat × Info)} {id : Nat} {i : Info} (h : oldest rs id = some i) : (id, i) ∈ rs := by
  unfold oldest at h
  obtain ⟨r, h1, h2⟩ := Option.map_eq_some_iff.1 h
  have e1 := List.mem_of_find?_eq_some h1
  have e2 := List.find?_some h1
  simp only [beq_iff_eq] at e2
  rw [← h2, ← e2]
  exact e1

/-- Entries that answer as their records say. -/
theorem findInfo_eq {a : Ask} {id : Nat} (es : List Entry) (f : Entry → Info)
    (h : ∀ e ∈ es, e.id = id → answer a e = infoAnswer a (some (f e))) :
    findInfo a id (es.map .infe) = infoAnswer a (oldest (es.map fun e => (e.id, f e)) id) := by
  induction es with
  | nil => rfl
  | cons e es ih =>
    simp only [List.map_cons, findInfo]
    unfold oldest
    rw [List.find?_cons]
    by_cases he : e.id = id
    · rw [if_pos he, h e (by simp) he]
      simp [he]
    · rw [if_neg he, ih fun x hx => h x (by simp [hx])]
      simp [beq_eq_false_iff_ne.2 he, oldest]

theorem copyOut_str {g : Bool} {s : Bytes} (h : 0 ∉ s) : copyOut g (some (s ++ [0])) = .ok (when g s) := by
  unfold copyOut when
  cases g with
  | false => rfl
  | true => simp [strlen_str h [], Res.bind]

theorem copyOut_empty {g : Bool} : copyOut g (some [0]) = .ok (when g []) := copyOut_str (s := []) (by simp)

theorem copyOut_null {g : Bool} : copyOut g none = .ok (when g []) := by cases g <;> rfl

/-- An entry with three strings. -/
theorem answer_strings {a : Ask} {e : Entry} {n t c : Bytes} (hn : e.name = some (n ++ [0])) (ht : e.contentType = some (t ++ [0]))
    (hc : e.contentEncoding = some (c ++ [0])) (n0 : 0 ∉ n) (t0 : 0 ∉ t) (c0 : 0 ∉ c) (hp : e.protection < 65536) :
    answer a e = .ok ⟨when a.protection e.protection, when a.name n, when a.contentType t, when a.contentEncoding c⟩ := by
  have hw : w16(e.protection) = e.protection := Nat.mod_eq_of_lt hp
  unfold answer
  rw [hn, hc, ht, copyOut_str n0, copyOut_str c0, hw]
  simp only [Res.bind]
  unfold when
  by_cases h : a.contentType = true
  · rw [if_pos h, strlen_str t0 []]
    simp [h]
  · rw [if_neg h]
    simp [h]

/-- An entry without content type and encoding. -/
theorem answer_null {a : Ask} {e : Entry} {n : Bytes} (hn : e.name = some (n ++ [0])) (ht : e.contentType = none)
    (hc : e.contentEncoding = none) (n0 : 0 ∉ n) (hp : e.protection < 65536) :
    answer a e = if a.contentType then
        (if a.name then .ok ⟨when a.protection e.protection, some [], none, when a.contentEncoding []⟩ else .ub)
      else .ok ⟨when a.protection e.protection, when a.name n, none, when a.contentEncoding []⟩ := by
  have hw : w16(e.protection) = e.protection := Nat.mod_eq_of_lt hp
  unfold answer
  rw [hn, hc, ht, copyOut_str n0, copyOut_null, hw]
  rfl

/-! ## In memory -/

/-- **C101, in memory.** After any sequence of calls that sets the information of every item at most once, and
no content types, `ISOGetItemInfo` writes to the buffers it is given what the calls said: name and protection
index, and empty strings for the content.

Missing for the full claim: items with information set twice (`c101_not_newest`) and content types and
encodings (`c101_not_content`). -/
theorem c101_info_partial (primary : Nat) (calls : List Call) (hc : ∀ c ∈ calls, c.Clean) (hb : ∀ c ∈ calls, c.Bare)
    (ho : (setItems calls).Nodup) (hp : ∀ id i, known primary calls id = some i → i.protection < 65536) :
    ∃ s, run primary calls none = .ok s ∧ ∀ a id, getInfo s a id = infoAnswer a (known primary calls id) := by
  obtain ⟨s, h1, h2⟩ := run_holds (bare := True) primary calls (.inl ⟨rfl, rfl⟩) hc fun _ => hb
  change Holds True s (records primary calls) at h2
  refine ⟨s, h1, fun a id => ?_⟩
  have hn : ∀ id, oldest (records primary calls) id = known primary calls id := by
    intro id
    rw [oldest_newest (by rw [records_ids]; exact ho), known_eq]
  rw [← hn]
  rcases h2 with ⟨rfl, h2⟩ | ⟨es, rfl, h2⟩
  · rw [h2]; rfl
  have hr := h2.records
  unfold getInfo
  simp only
  rw [hr]
  -- entries of items whose oldest record is another one do not matter: there is only one
  refine findInfo_eq es infoOf fun e he hid => ?_
  obtain ⟨n, hn1, hn2⟩ := (h2.good e he).name
  obtain ⟨b1, b2⟩ := (h2.good e he).bare trivial
  have hk : known primary calls e.id = some (infoOf e) := by
    rw [← hn, hr]
    have hnd : ((es.map fun e => (e.id, infoOf e)).map Prod.fst).Nodup := by rw [← hr, records_ids]; exact ho
    clear hr h2 b1 b2 hn1 hn2 h1
    induction es with
    | nil => simp at he
    | cons x es ih =>
      simp only [List.map_cons, List.nodup_cons] at hnd
      unfold oldest
      simp only [List.map_cons, List.find?_cons]
      by_cases hx : x.id = e.id
      · rcases List.mem_cons.1 he with rfl | he
        · simp
        · exact absurd (List.mem_map.2 ⟨(e.id, infoOf e), List.mem_map.2 ⟨e, he, rfl⟩, hx.symm⟩) hnd.1
      · rcases List.mem_cons.1 he with rfl | he
        · exact absurd rfl hx
        · simp only [beq_eq_false_iff_ne.2 hx]
          exact ih he hnd.2
  have hq : e.protection < 65536 := hp e.id (infoOf e) hk
  rw [answer_strings (t := []) (c := []) hn1 b1 b2 hn2 (by simp) (by simp) hq]
  simp [infoAnswer, infoOf, hn1, str_some hn2]

/-! ## From a file -/

theorem clean_records {es : List Entry} {rs : List (Nat × Info)} (h2 : Stands True (es.map .infe) rs es) :
    ∀ r ∈ rs, CleanInfo r.2 := by
  intro r hr'
  rw [h2.records] at hr'
  obtain ⟨e, he, rfl⟩ := List.mem_map.1 hr'
  obtain ⟨n, hn, hn0⟩ := (h2.good e he).name
  refine ⟨by simpa [infoOf, hn, str_some hn0] using hn0, ?_⟩
  intro t u hk
  rcases kind_cases (h2.good e he) with ⟨-, hk'⟩ | ⟨x, -, -, hk'⟩ | ⟨u', -, -, hu', hk'⟩
  · exact absurd (hk'.symm.trans hk) (by simp)
  · exact absurd (hk'.symm.trans hk) (by simp)
  · have := hk'.symm.trans hk
    injection this with _ h
    rwa [← h]

theorem answer_decoded {a : Ask} {r : Nat × Info} (hc : CleanInfo r.2) (hp : r.2.protection < 65536) :
    (a.contentType = true → ¬ Untold (some r.2) → answer a (decoded r) = infoAnswer a (some r.2)) ∧
    (a.contentType = false → answer a (decoded r) = infoAnswer a (some r.2)) ∧
    (a.contentType = true → Untold (some r.2) → answer a (decoded r) =
      if a.name then .ok ⟨when a.protection r.2.protection, some [], none, when a.contentEncoding []⟩ else .ub) := by
  obtain ⟨id, n, p, k, hd⟩ := r
  have strs : ∀ e : Entry, e.name = some (n ++ [0]) → e.contentType = some [0] → e.contentEncoding = some [0] → e.protection = p →
      answer a e = infoAnswer a (some ⟨n, p, k, hd⟩) := by
    intro e h1 h2 h3 h4
    rw [answer_strings (t := []) (c := []) h1 h2 h3 hc.1 (by simp) (by simp) (h4 ▸ hp), h4]
    rfl
  cases k with
  | plain =>
    have := strs (decoded (id, ⟨n, p, .plain, hd⟩)) rfl rfl rfl rfl
    refine ⟨fun _ _ => this, fun _ => this, fun _ ⟨t, h, _⟩ => ?_⟩
    simp [typeOf, Info.type] at h
  | extension t d =>
    have := strs (decoded (id, ⟨n, p, .extension t d, hd⟩)) rfl rfl rfl rfl
    refine ⟨fun _ _ => this, fun _ => this, fun _ ⟨t, h, _⟩ => ?_⟩
    simp [typeOf, Info.type] at h
  | typed t u =>
    by_cases ht : t = mime
    · have := strs (decoded (id, ⟨n, p, .typed t u, hd⟩)) rfl (by simp [decoded, ht]) (by simp [decoded, ht]) rfl
      refine ⟨fun _ _ => this, fun _ => this, fun _ ⟨t', h, h'⟩ => ?_⟩
      simp [typeOf, Info.type] at h
      exact absurd (h.symm.trans ht) h'
    · have key := answer_null (a := a) (e := decoded (id, ⟨n, p, .typed t u, hd⟩)) (n := n) rfl (by simp [decoded, ht])
        (by simp [decoded, ht]) hc.1 hp
      refine ⟨fun _ hu => absurd ⟨t, rfl, ht⟩ hu, fun h => ?_, fun h _ => ?_⟩
      · rw [key, h]
        simp [infoAnswer, when, h, decoded]
      · rw [key, h]
        rfl

/-- The first entry with the ID, of records read from a file. -/
theorem findInfo_decoded {a : Ask} {id : Nat} (rs : List (Nat × Info)) :
    findInfo a id (rs.map fun r => .infe (decoded r)) = match oldest rs id with
      | none => .err .notFound
      | some i => answer a (decoded (id, i)) := by
  have hid : ∀ r : Nat × Info, (decoded r).id = r.1 := by
    rintro ⟨id, n, p, k, h⟩; cases k <;> rfl
  induction rs with
  | nil => rfl
  | cons r rs ih =>
    simp only [List.map_cons, findInfo, hid]
    unfold oldest
    rw [List.find?_cons]
    by_cases hr : r.1 = id
    · obtain ⟨k, i⟩ := r
      simp only at hr
      subst hr
      simp
    · rw [if_neg hr, ih]
      simp [beq_eq_false_iff_ne.2 hr, oldest]

/-- **C101, in a file.** The information survives a file: the same is told after writing and reading, if the
content type is not asked for or the item has none of the types that leave no place for it.

Missing for the full claim: as in memory, and items of a type other than `mime` (`c101_not_name`). -/
theorem c101_file_partial (primary : Nat) (calls : List Call) (hc : ∀ c ∈ calls, c.Clean) (hb : ∀ c ∈ calls, c.Bare)
    (ho : (setItems calls).Nodup) (hf : Fits (records primary calls)) (hne : setItems calls ≠ []) :
    ∃ l, run primary calls none = .ok (some l) ∧ write 0 0 l = .ok (layout (records primary calls)) ∧
      ∀ rest, ∃ l' h, parseAtom parse (layout (records primary calls) ++ rest) = .ok ((0, 0, l'), h, rest) ∧
        ∀ a id, a.contentType = false ∨ ¬ Untold (known primary calls id) →
          getInfo (some l') a id = infoAnswer a (known primary calls id) := by
  obtain ⟨s, h1, h2⟩ := run_holds (bare := True) primary calls (.inl ⟨rfl, rfl⟩) hc fun _ => hb
  change Holds True s (records primary calls) at h2
  rcases h2 with ⟨-, h2⟩ | ⟨es, rfl, h2⟩
  · exact absurd (by rw [← records_ids primary, h2]; rfl) hne
  refine ⟨_, h1, ?_, fun rest => ?_⟩
  · rw [h2.records]; exact write_layout h2.good (h2.records ▸ hf)
  obtain ⟨h, hp⟩ := parse_layout hf (clean_records h2) rest
  refine ⟨_, h, hp, fun a id hq => ?_⟩
  unfold getInfo
  simp only
  rw [findInfo_decoded]
  rw [← known_eq, ← oldest_newest (by rw [records_ids]; exact ho)] at hq ⊢
  cases hi : oldest (records primary calls) id with
  | none => rfl
  | some i =>
    have hm := oldest_mem hi
    obtain ⟨k1, k2, -⟩ := answer_decoded (a := a) (clean_records h2 _ hm) (hf.protection _ hm)
    rw [hi] at hq
    rcases hq with hq | hq
    · exact k2 hq
    · cases ha : a.contentType with
      | false => exact k2 ha
      | true => exact k1 ha hq

/-- **C101 fails for items of a type other than `mime` in a file.** Asked for the content type as well, the
function erases the name it has just written, and writes to `NULL` if no name is asked for. -/
theorem c101_not_name (primary : Nat) (calls : List Call) (hc : ∀ c ∈ calls, c.Clean) (hb : ∀ c ∈ calls, c.Bare)
    (ho : (setItems calls).Nodup) (hf : Fits (records primary calls)) (id : Nat) (hu : Untold (known primary calls id))
    (a : Ask) (ha : a.contentType = true) :
    ∃ l, run primary calls none = .ok (some l) ∧ write 0 0 l = .ok (layout (records primary calls)) ∧
      ∀ rest, ∃ l' h, parseAtom parse (layout (records primary calls) ++ rest) = .ok ((0, 0, l'), h, rest) ∧
        (a.name = false → getInfo (some l') a id = .ub) ∧
        (a.name = true → ∃ r, getInfo (some l') a id = .ok r ∧ r.name = some [] ∧ r.contentType = none) := by
  obtain ⟨s, h1, h2⟩ := run_holds (bare := True) primary calls (.inl ⟨rfl, rfl⟩) hc fun _ => hb
  change Holds True s (records primary calls) at h2
  have hk : known primary calls id = oldest (records primary calls) id := by
    rw [← known_eq, ← oldest_newest (by rw [records_ids]; exact ho)]
  rw [hk] at hu
  cases hi : oldest (records primary calls) id with
  | none => rw [hi] at hu; obtain ⟨t, ht, -⟩ := hu; simp [typeOf] at ht
  | some i =>
  rw [hi] at hu
  have hm := oldest_mem hi
  rcases h2 with ⟨-, h2⟩ | ⟨es, rfl, h2⟩
  · rw [h2] at hm; simp at hm
  refine ⟨_, h1, ?_, fun rest => ?_⟩
  · rw [h2.records]; exact write_layout h2.good (h2.records ▸ hf)
  obtain ⟨h, hp⟩ := parse_layout hf (clean_records h2) rest
  obtain ⟨-, -, k3⟩ := answer_decoded (a := a) (clean_records h2 _ hm) (hf.protection _ hm)
  have hg : getInfo (some ((records primary calls).map fun r => .infe (decoded r))) a id = answer a (decoded (id, i)) := by
    unfold getInfo
    simp only
    rw [findInfo_decoded, hi]
  refine ⟨_, h, hp, fun hn => ?_, fun hn => ?_⟩
  · rw [hg, k3 ha hu, hn]; rfl
  · rw [hg, k3 ha hu, hn]; exact ⟨_, rfl, rfl, rfl⟩

/-- Content types and encodings of other writers are told: for a file whose first entry of the item has them. -/
theorem c101_content (typed : Bool) (flags id p : Nat) (name type enc : Bytes) (hp : p < 65536) (hn : 0 ∉ name) (ht : 0 ∉ type)
    (he : 0 ∉ enc) (before after : List Entry) (hb : ∀ e ∈ before, e.id ≠ id) (a : Ask) :
    getInfo (some ((before ++ mimeEntry typed flags id p name type enc :: after).map .infe)) a id =
      .ok ⟨when a.protection p, when a.name name, when a.contentType type, when a.contentEncoding enc⟩ := by
  unfold getInfo
  simp only
  induction before with
  | nil =>
    simp only [List.nil_append, List.map_cons, findInfo]
    rw [if_pos (by rfl), answer_strings (e := mimeEntry typed flags id p name type enc) rfl rfl rfl hn ht he hp]
    rfl
  | cons e es ih =>
    simp only [List.cons_append, List.map_cons, findInfo]
    rw [if_neg (hb e (by simp))]
    exact ih fun x hx => hb x (by simp [hx])

/-- **C101 fails for content types that were set.** They are copied without a terminator, and asking for one
reads behind the copy. -/
theorem c101_not_content (id p : Nat) (name enc : Option Bytes) (type : Bytes) (hn : Clean name) (ht : 0 ∉ type) (a : Ask)
    (ha : a.contentType = true) : getInfo (setInfo none id p name (some type) enc) a id = .ub := by
  have hc : ∀ m, copyOut a.contentEncoding m = .ub ∨ ∃ v, copyOut a.contentEncoding m = .ok v := by
    intro m
    unfold copyOut strlen
    cases a.contentEncoding with
    | false => exact .inr ⟨_, rfl⟩
    | true =>
      cases m with
      | none => exact .inr ⟨_, rfl⟩
      | some b =>
        simp only [if_true]
        cases b.findIdx? (· = 0) with
        | none => exact .inl rfl
        | some n => exact .inr ⟨_, rfl⟩
  unfold getInfo setInfo
  simp only [Option.getD_none, List.nil_append, findInfo, if_true]
  obtain ⟨⟨n, h1, h2⟩, -⟩ := copyStr_str hn
  unfold answer
  rw [h1, copyOut_str h2]
  rcases hc (some (copyShort enc)) with hc | ⟨v, hc⟩
  · simp only [hc, Res.bind]
  · have e : strlen (copyShort (some type)) = .ub := strlen_none ht
    simp only [ha, hc, e, Res.bind, if_true]

/-- An empty content type. -/
example : getInfo (setInfo none 1 0 (some [0x61]) (some []) none) ⟨false, true, true, false⟩ 1 = .ub :=
  c101_not_content 1 0 _ _ _ (by simp [Clean]) (by simp) _ rfl

/-- A hidden item with content type `a/b`. -/
example : getInfo (some ([⟨0, 0, 4, 0, none, none, none, 0, none, 0, none⟩, mimeEntry true 1 5 9 [0x61] [0x61, 0x2f, 0x62] []].map .infe))
    ⟨true, true, true, true⟩ 5 = .ok ⟨some 9, some [0x61], some [0x61, 0x2f, 0x62], some []⟩ :=
  c101_content true 1 5 9 [0x61] [0x61, 0x2f, 0x62] [] (by decide) (by decide) (by decide) (by decide)
    [⟨0, 0, 4, 0, none, none, none, 0, none, 0, none⟩] [] (by decide) ⟨true, true, true, true⟩

/-- **C101 fails for information set twice.** The first information is told here, and the newest by the other
functions. -/
theorem c101_not_newest :
    (known 9 [.set 1 4 (some [0x61]) none none, .set 1 5 (some [0x62]) none none, .type 1 (fcc 'E' 'x' 'i' 'f') none] 1).map
      (fun i => (i.name, i.protection, i.type)) = some ([0x62], 5, some (fcc 'E' 'x' 'i' 'f')) ∧
    ((run 9 [.set 1 4 (some [0x61]) none none, .set 1 5 (some [0x62]) none none, .type 1 (fcc 'E' 'x' 'i' 'f') none] none).bind fun s =>
      (getType s 1).bind fun t => (getInfo s ⟨true, true, false, false⟩ 1).bind fun a => .ok (t.1, a.name, a.protection)) =
      .ok (fcc 'E' 'x' 'i' 'f', some [0x61], some 4) := by
  decide +kernel

/-! ## Items of a type -/

theorem typeLoop_eq {s : S} {m : Known} (type : Nat) (hm : ∀ id t, typeOf (m id) = some t → ∃ u, getType s id = .ok (t, u))
    (items : List Nat) (hi : ∀ id ∈ items, typeOf (m id) ≠ none) :
    ∀ found, typeLoop s type found items = .ok (found ++ ofType m items type) := by
  induction items with
  | nil => intro found; simp [typeLoop, ofType]
  | cons id l ih =>
    intro found
    obtain ⟨t, ht⟩ := Option.ne_none_iff_exists'.1 (hi id (by simp))
    obtain ⟨u, hu⟩ := hm id t ht
    unfold typeLoop
    rw [hu]
    simp only [Res.bind]
    rw [ih fun x hx => hi x (by simp [hx])]
    unfold ofType
    rw [List.filter_cons, ht]
    by_cases h : type = t
    · simp [h]
    · have : ¬ t = type := fun e => h e.symm
      simp [h, this]

theorem typeLoop_err {s : S} {m : Known} (type : Nat) (hm : ∀ id t, typeOf (m id) = some t → ∃ u, getType s id = .ok (t, u))
    (hn : ∀ id, typeOf (m id) = none → ∃ e, getType s id = .err e) (items : List Nat) (hi : ∃ id ∈ items, typeOf (m id) = none) :
    ∀ found, ∃ e, typeLoop s type found items = .err e := by
  induction items with
  | nil => simp at hi
  | cons id l ih =>
    intro found
    unfold typeLoop
    cases ht : typeOf (m id) with
    | none =>
      obtain ⟨e, he⟩ := hn id ht
      exact ⟨e, by rw [he]; rfl⟩
    | some t =>
      obtain ⟨u, hu⟩ := hm id t ht
      rw [hu]
      simp only [Res.bind]
      obtain ⟨x, hx, hx'⟩ := hi
      rcases List.mem_cons.1 hx with rfl | hx
      · rw [ht] at hx'; cases hx'
      · exact ih ⟨x, hx, hx'⟩ _

theorem typeAnswer_type {i : Option Info} : (∀ t, typeOf i = some t → (∃ u, typeAnswer i = .ok (t, u)) ∧ ∃ u, storedType i = .ok (t, u)) ∧
    (typeOf i = none → (∃ e, typeAnswer i = .err e) ∧ ∃ e, storedType i = .err e) := by
  cases i with
  | none => exact ⟨fun t h => by simp [typeOf] at h, fun _ => ⟨⟨_, rfl⟩, _, rfl⟩⟩
  | some i =>
    obtain ⟨n, p, k, h⟩ := i
    cases k with
    | plain => exact ⟨fun t h => by simp [typeOf, Info.type] at h, fun _ => ⟨⟨_, rfl⟩, _, rfl⟩⟩
    | extension => exact ⟨fun t h => by simp [typeOf, Info.type] at h, fun _ => ⟨⟨_, rfl⟩, _, rfl⟩⟩
    | typed t u =>
      refine ⟨fun t' h => ?_, fun h => by simp [typeOf, Info.type] at h⟩
      simp only [typeOf, Info.type, Option.bind_some, Option.some.injEq] at h
      subst h
      exact ⟨⟨_, rfl⟩, _, rfl⟩

/-- **C101, items of a type.** If every item with a location has been given a type, `ISOGetAllItemsWithType`
finds exactly the items of the type, in the order of their locations; both in memory and after the
information was written and read.

Missing for the full claim: items without a type (`c101_not_mixed`), and entries with IDs of 32 bits
(`c101_not_wide`). -/
theorem c101_types_partial (primary : Nat) (calls : List Call) (hc : ∀ c ∈ calls, c.Clean) (items : List Nat)
    (hi : ∀ id ∈ items, typeOf (known primary calls id) ≠ none) :
    (∃ s, run primary calls none = .ok s ∧ ∀ type, withType s (some items) type = .ok (ofType (known primary calls) items type)) ∧
    ((∀ c ∈ calls, c.Bare) → Fits (records primary calls) → records primary calls ≠ [] →
      ∀ rest, ∃ l' h, parseAtom parse (layout (records primary calls) ++ rest) = .ok ((0, 0, l'), h, rest) ∧
        ∀ type, withType (some l') (some items) type = .ok (ofType (known primary calls) items type)) := by
  constructor
  · obtain ⟨s, h1, h2⟩ := c59_answers primary calls hc
    refine ⟨s, h1, fun type => ?_⟩
    have := typeLoop_eq (s := s) type (fun id t h => by rw [(h2 id).2.1]; exact (typeAnswer_type.1 t h).1) items hi []
    simpa [withType] using this
  · intro hb hf hne rest
    obtain ⟨l, -, -, -, h4⟩ := c59_file_partial primary calls hc hb hf hne
    obtain ⟨l', h, h5, -, h7⟩ := h4 rest
    refine ⟨l', h, h5, fun type => ?_⟩
    have := typeLoop_eq (s := some l') type (fun id t h => by rw [(h7 id).2.1]; exact (typeAnswer_type.1 t h).2) items hi []
    simpa [withType] using this

/-- **C101 fails for items without a type.** One item without a type, and no items are found. -/
theorem c101_not_mixed (primary : Nat) (calls : List Call) (hc : ∀ c ∈ calls, c.Clean) (items : List Nat)
    (hi : ∃ id ∈ items, typeOf (known primary calls id) = none) :
    ∃ s, run primary calls none = .ok s ∧ ∀ type, ∃ e, withType s (some items) type = .err e := by
  obtain ⟨s, h1, h2⟩ := c59_answers primary calls hc
  refine ⟨s, h1, fun type => ?_⟩
  exact typeLoop_err type (fun id t h => by rw [(h2 id).2.1]; exact (typeAnswer_type.1 t h).1)
    (fun id h => by rw [(h2 id).2.1]; exact (typeAnswer_type.2 h).1) items hi []

/-- The second item has a name and no type. -/
example : ∃ s, run 9 [.set 1 0 none none none, .set 2 0 (some [0x61]) none none, .type 1 (fcc 'E' 'x' 'i' 'f') none] none = .ok s ∧
    ∀ type, ∃ e, withType s (some [1, 2]) type = .err e :=
  c101_not_mixed 9 _ (by simp [Call.Clean, Iinf.Clean]) [1, 2] ⟨2, by simp, by decide +kernel⟩

/-- The `infe` box of version 3, with an ID of 32 bits. -/
def wideBytes (id type : Nat) (name : Bytes) : Bytes :=
  fullBox (fcc 'i' 'n' 'f' 'e') 3 0 (be 4 id ++ be 2 0 ++ be 4 type ++ name ++ [0])

def wideFile : Bytes := fullBox (fcc 'i' 'i' 'n' 'f') 0 0 (be 2 1 ++ wideBytes 70000 (fcc 'E' 'x' 'i' 'f') [0x61])

/-- **C101 fails for IDs of 32 bits.** The entry is read, its type is not told, and no items are found. -/
theorem c101_not_wide :
    ((parseAtom parse wideFile).bind fun r => getInfo (some r.1.2.2) ⟨true, true, false, false⟩ 70000) =
      .ok ⟨some 0, some [0x61], none, none⟩ ∧
    ((parseAtom parse wideFile).bind fun r => getType (some r.1.2.2) 70000) = .err .invalidMedia ∧
    ((parseAtom parse wideFile).bind fun r => withType (some r.1.2.2) (some [70000]) (fcc 'E' 'x' 'i' 'f')) = .err .invalidMedia := by
  decide +kernel

/-! ## A case -/

namespace Example101

/-- Three items with names and types. -/
def calls : List Call :=
  [.set 1 0 (some [0x61, 0x62]) none none, .set 2 7 (some [0x63]) none none, .type 1 (fcc 'E' 'x' 'i' 'f') none,
   .type 2 (fcc 'm' 'i' 'm' 'e') none, .set 3 1 none none none, .type 3 (fcc 'E' 'x' 'i' 'f') none, .hide 3]

theorem clean : ∀ c ∈ calls, c.Clean := by
  simp [calls, Call.Clean, Iinf.Clean]

theorem bare : ∀ c ∈ calls, c.Bare := by
  simp [calls, Call.Bare]

theorem fits : Fits (records 1 calls) := by
  have e : records 1 calls = [(1, ⟨[0x61, 0x62], 0, .typed (fcc 'E' 'x' 'i' 'f') [], false⟩),
    (2, ⟨[0x63], 7, .typed (fcc 'm' 'i' 'm' 'e') [], false⟩), (3, ⟨[], 1, .typed (fcc 'E' 'x' 'i' 'f') [], true⟩)] := by decide
  refine ⟨by decide, by decide, by decide, ?_, ?_, by decide, by decide⟩
  · intro r hr t u hk
    rw [e] at hr
    simp only [List.mem_cons, List.not_mem_nil, or_false] at hr
    rcases hr with rfl | rfl | rfl <;> cases hk <;> decide
  · intro r hr t u hk
    rw [e] at hr
    simp only [List.mem_cons, List.not_mem_nil, or_false] at hr
    rcases hr with rfl | rfl | rfl <;> cases hk

/-- The items of type `Exif`, and the names of two items, from a file. -/
example : ∃ l' h, parseAtom parse (layout (records 1 calls) ++ [9]) = .ok ((0, 0, l'), h, [9]) ∧
    getInfo (some l') ⟨true, true, false, true⟩ 1 = .ok ⟨some 0, some [0x61, 0x62], none, some []⟩ ∧
    getInfo (some l') ⟨true, true, true, true⟩ 2 = .ok ⟨some 7, some [0x63], some [], some []⟩ ∧
    getInfo (some l') ⟨true, true, true, true⟩ 8 = .err .notFound := by
  obtain ⟨l, -, -, h3⟩ := c101_file_partial 1 calls clean bare (by decide) fits (by decide)
  obtain ⟨l', h, h5, h6⟩ := h3 [9]
  refine ⟨l', h, h5, ?_, ?_, ?_⟩
  · rw [h6 _ _ (.inl rfl)]; decide +kernel
  · have e : typeOf (known 1 calls 2) = some mime := by decide +kernel
    rw [h6 _ _ (.inr fun ⟨t, h1, h2⟩ => h2 (Option.some.inj (h1.symm.trans e)))]; decide +kernel
  · have e : typeOf (known 1 calls 8) = none := by decide +kernel
    rw [h6 _ _ (.inr fun ⟨t, h1, h2⟩ => by rw [e] at h1; cases h1)]; decide +kernel

example : ∃ s, run 1 calls none = .ok s ∧ withType s (some [3, 2, 1]) (fcc 'E' 'x' 'i' 'f') = .ok [3, 1] ∧
    getInfo s ⟨true, true, true, true⟩ 1 = .ok ⟨some 0, some [0x61, 0x62], some [], some []⟩ := by
  obtain ⟨⟨s, h1, h2⟩, -⟩ := c101_types_partial 1 calls clean [3, 2, 1] (by decide +kernel)
  have hk : ∀ id i, known 1 calls id = some i → i.protection < 65536 := by
    intro id i h
    rw [← known_eq] at h
    rw [← oldest_newest (by rw [records_ids]; decide)] at h
    exact fits.protection _ (oldest_mem h)
  obtain ⟨s', h3, h4⟩ := c101_info_partial 1 calls clean bare (by decide) hk
  rw [h1] at h3
  injection h3 with h3
  subst h3
  refine ⟨s, h1, ?_, ?_⟩
  · rw [h2]; decide +kernel
  · rw [h4]; decide +kernel

/-- The name of the item of type `Exif` is erased. -/
example : ∃ l, run 1 calls none = .ok (some l) ∧ write 0 0 l = .ok (layout (records 1 calls)) ∧
    ∀ rest, ∃ l' h, parseAtom parse (layout (records 1 calls) ++ rest) = .ok ((0, 0, l'), h, rest) ∧
      ((⟨true, true, true, true⟩ : Ask).name = false → getInfo (some l') ⟨true, true, true, true⟩ 1 = .ub) ∧
      ((⟨true, true, true, true⟩ : Ask).name = true → ∃ r, getInfo (some l') ⟨true, true, true, true⟩ 1 = .ok r ∧ r.name = some [] ∧ r.contentType = none) :=
  c101_not_name 1 calls clean bare (by decide) fits 1 ⟨fcc 'E' 'x' 'i' 'f', by decide +kernel, by decide⟩ ⟨true, true, true, true⟩ rfl

end Example101

end Verif.Iinf
