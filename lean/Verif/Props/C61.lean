import Verif.Model.Grpl
import Verif.Spec.Grpl
import Verif.Lemmas.Auto

/-!
# C61: Entity groups are kept and come back from a file
-/

namespace Verif.Grpl

def call (s : S) : Call → Res S
  | .new t id => newGroup s t id
  | .add id e => addEntity s id e

/-- A refused call changes nothing. -/
def run : List Call → S → S
  | [], s => s
  | c :: cs, s => match call s c with
    | .ok s' => run cs s'
    | _ => run cs s

def groupOf (b : Box) : Group := (b.type, b.id, b.entities)

def Box.of (g : Group) : Box := ⟨g.1, 0, 0, g.2.1, g.2.2, []⟩

/-! ## The groups in memory -/

theorem addFirst_none {id e : Nat} {l : List Group} (h : ∀ g ∈ l, g.2.1 ≠ id) : addFirst id e (l.map Box.of) = none := by
  induction l with
  | nil => rfl
  | cons g l ih =>
    simp only [List.map_cons, addFirst]
    rw [if_neg (show (Box.of g).id ≠ id from h g (by simp)), ih fun x hx => h x (by simp [hx])]
    rfl

theorem step_add_other {id e : Nat} {l : List Group} (h : ∀ g ∈ l, g.2.1 ≠ id) : step l (.add id e) = l := by
  unfold step
  conv => rhs; rw [← List.map_id l]
  exact List.map_congr_left fun g hg => if_neg (h g hg)

theorem addFirst_some {id e : Nat} {l : List Group} (hn : (l.map (·.2.1)).Nodup) (h : ∃ g ∈ l, g.2.1 = id) :
    addFirst id e (l.map Box.of) = some ((step l (.add id e)).map Box.of) := by
  induction l with
  | nil => simp at h
  | cons g l ih =>
    simp only [List.map_cons, List.nodup_cons] at hn
    simp only [List.map_cons, addFirst]
    by_cases hg : g.2.1 = id
    · rw [if_pos (show (Box.of g).id = id from hg)]
      have := step_add_other (e := e) (l := l) (id := id) fun x hx hid => hn.1 (List.mem_map.2 ⟨x, hx, by rw [hid, hg]⟩)
      unfold step at this ⊢
      simp only [List.map_cons, this, hg, if_true]
      subst hg
      rfl
    · rw [if_neg (show (Box.of g).id ≠ id from hg), ih hn.2 (by
        obtain ⟨x, hx, hid⟩ := h
        rcases List.mem_cons.1 hx with rfl | hx
        · exact absurd hid hg
        · exact ⟨x, hx, hid⟩)]
      unfold step
      simp only [List.map_cons, if_neg hg]
      rfl

theorem step_ids (l : List Group) (c : Call) (hn : (l.map (·.2.1)).Nodup) : ((step l c).map (·.2.1)).Nodup := by
  cases c with
  | new t id =>
    simp only [step]
    split
    · exact hn
    · next h =>
      rw [List.map_append, List.nodup_append]
      refine ⟨hn, by simp, ?_⟩
      intro a ha b hb
      simp at hb
      rintro rfl
      rw [hb] at ha
      exact h ha
  | add id e =>
    unfold step
    rw [List.map_map]
    have : ((fun g : Group => g.2.1) ∘ fun g => if g.2.1 = id then (g.1, g.2.1, g.2.2 ++ [e]) else g) = (fun g : Group => g.2.1) := by
      funext g
      simp only [Function.comp_apply]
      split <;> rfl
    rw [this]
    exact hn

/-- The state for the groups; without any the box may or may not be there. -/
def Holds (s : S) (l : List Group) : Prop := (s = none ∧ l = []) ∨ s = some (l.map Box.of)

theorem any_id (l : List Group) (id : Nat) : ((l.map Box.of).any fun b => b.id == id) = decide (id ∈ l.map (·.2.1)) := by
  induction l with
  | nil => rfl
  | cons g l ih =>
    simp only [List.map_cons, List.any_cons, ih, List.mem_cons]
    have e : (Box.of g).id = g.2.1 := rfl
    rw [e]
    by_cases h : g.2.1 = id
    · simp [h]
    · have h' : id ≠ g.2.1 := fun x => h x.symm
      simp [h, h']

theorem call_holds {s : S} {l : List Group} (h : Holds s l) (hn : (l.map (·.2.1)).Nodup) (c : Call) :
    (∃ s', call s c = .ok s' ∧ Holds s' (step l c) ∧ (match c with | .new _ id => ∀ g ∈ l, g.2.1 ≠ id | .add id _ => ∃ g ∈ l, g.2.1 = id)) ∨
      ((∃ e, call s c = .err e) ∧ step l c = l ∧ ¬ (match c with | .new _ id => ∀ g ∈ l, g.2.1 ≠ id | .add id _ => ∃ g ∈ l, g.2.1 = id)) := by
  have hs : s.getD [] = l.map Box.of := by
    rcases h with ⟨rfl, rfl⟩ | rfl <;> rfl
  cases c with
  | new t id =>
    simp only [call, newGroup, hs, any_id, step]
    by_cases hid : id ∈ l.map (·.2.1)
    · right
      rw [if_pos (by simpa using hid), if_pos hid]
      refine ⟨⟨_, rfl⟩, rfl, fun h => ?_⟩
      obtain ⟨g, hg, e⟩ := List.mem_map.1 hid
      exact h g hg e
    · left
      rw [if_neg (by simpa using hid), if_neg hid]
      refine ⟨_, rfl, .inr ?_, fun g hg e => hid (List.mem_map.2 ⟨g, hg, e⟩)⟩
      rw [List.map_append]
      rfl
  | add id e =>
    by_cases hid : ∃ g ∈ l, g.2.1 = id
    · left
      rcases h with ⟨rfl, rfl⟩ | rfl
      · simp at hid
      · refine ⟨some ((step l (.add id e)).map Box.of), ?_, .inr rfl, hid⟩
        simp only [call, addEntity]
        rw [addFirst_some hn hid]
    · right
      have h0 : ∀ g ∈ l, g.2.1 ≠ id := fun g hg e => hid ⟨g, hg, e⟩
      refine ⟨⟨.notFound, ?_⟩, step_add_other h0, hid⟩
      rcases h with ⟨rfl, rfl⟩ | rfl
      · rfl
      · simp only [call, addEntity]
        rw [addFirst_none h0]

theorem run_holds (calls : List Call) : ∀ {s : S} {l : List Group}, Holds s l → (l.map (·.2.1)).Nodup →
    Holds (run calls s) (calls.foldl step l) ∧ ((calls.foldl step l).map (·.2.1)).Nodup := by
  induction calls with
  | nil => intro s l h hn; exact ⟨h, hn⟩
  | cons c cs ih =>
    intro s l h hn
    simp only [run, List.foldl_cons]
    rcases call_holds h hn c with ⟨s', e, h', -⟩ | ⟨⟨e, he⟩, hs, -⟩
    · rw [e]; exact ih h' (step_ids l c hn)
    · rw [he, hs]; exact ih h hn

/-- **C61.** After any sequence of calls the groups reported are those made, each once, with the entities added to
them in that order; a call succeeds exactly if the ID is new, or if the group is there. -/
theorem c61_answers (calls : List Call) :
    ((groups calls).map (·.2.1)).Nodup ∧
    (groups calls ≠ [] → entries (run calls none) = .ok (groups calls)) ∧
    (∀ id, count (run calls none) id = match (groups calls).find? fun g => g.2.1 == id with
      | none => .err .notFound
      | some g => .ok g.2.2.length) ∧
    ∀ c, (∃ s, call (run calls none) c = .ok s) ↔ accepted calls c := by
  obtain ⟨h, hn⟩ := run_holds calls (s := none) (l := []) (.inl ⟨rfl, rfl⟩) (by simp)
  change Holds _ (groups calls) at h
  change ((groups calls).map _).Nodup at hn
  refine ⟨hn, ?_, ?_, ?_⟩
  · intro hne
    rcases h with ⟨-, h⟩ | h
    · exact absurd h hne
    · rw [h]
      simp only [entries, List.map_map]
      congr 1
      conv => rhs; rw [← List.map_id (groups calls)]
      rfl
  · intro id
    rcases h with ⟨h, h'⟩ | h
    · rw [h, h']; rfl
    · rw [h]
      simp only [count]
      generalize groups calls = l
      induction l with
      | nil => rfl
      | cons g l ih =>
        simp only [List.map_cons, List.find?_cons]
        have e : (Box.of g).id = g.2.1 := rfl
        rw [e]
        cases g.2.1 == id with
        | true => rfl
        | false => exact ih
  · intro c
    rcases call_holds h hn c with ⟨s', e, -, h'⟩ | ⟨⟨e, he⟩, -, h'⟩
    · refine ⟨fun _ => ?_, fun _ => ⟨s', e⟩⟩
      cases c <;> exact h'
    · refine ⟨?_, fun ha => absurd ?_ h'⟩
      · rintro ⟨s, hs⟩
        rw [he] at hs
        cases hs
      · cases c <;> exact ha

/-! ## The box -/

/-- What stands for an entry of a file. -/
abbrev Item := Nat × Nat × Group × Bytes

def boxOf (x : Item) : Box := ⟨x.2.2.1.1, x.1, x.2.1, x.2.2.1.2.1, x.2.2.1.2.2, x.2.2.2⟩

def bytesOf (x : Item) : Bytes := layoutGroup x.1 x.2.1 x.2.2.1 x.2.2.2

theorem length_group (x : Item) : (bytesOf x).length = 20 + 4 * x.2.2.1.2.2.length + x.2.2.2.length := by
  unfold bytesOf layoutGroup fullBox box
  simp only [List.length_append, be_length]
  rw [flatMap_length_const (c := 4) _ (fun _ _ => be_length _ _)]
  omega

theorem group_eq (x : Item) : bytesOf x = (be 4 (20 + 4 * x.2.2.1.2.2.length + x.2.2.2.length) ++ be 4 x.2.2.1.1) ++ (be 1 x.1 ++ be 3 x.2.1 ++
    (be 4 x.2.2.1.2.1 ++ (be 4 x.2.2.1.2.2.length ++ (x.2.2.1.2.2.flatMap (be 4) ++ x.2.2.2)))) := by
  have hl := length_group x
  unfold bytesOf layoutGroup fullBox box at *
  have : 8 + (be 1 x.1 ++ be 3 x.2.1 ++ (be 4 x.2.2.1.2.1 ++ be 4 x.2.2.1.2.2.length ++ x.2.2.1.2.2.flatMap (be 4) ++ x.2.2.2)).length =
      20 + 4 * x.2.2.1.2.2.length + x.2.2.2.length := by
    rw [← hl]
    simp only [List.length_append, be_length]
  rw [this]
  simp only [List.append_assoc]

theorem length_layout (l : List Item) : (layout l).length = 8 + (l.flatMap bytesOf).length := by
  unfold layout box bytesOf
  simp only [List.length_append, be_length]

theorem item_le {l : List Item} {x : Item} (h : x ∈ l) : (bytesOf x).length ≤ (l.flatMap bytesOf).length := by
  obtain ⟨a, b, rfl⟩ := List.append_of_mem h
  simp only [List.flatMap_append, List.flatMap_cons, List.length_append]
  omega

theorem put_group (x : Item) (ht : 0 < x.2.2.1.1) {n : Nat} (hn : n = (bytesOf x).length) (hf : n < 2 ^ 32) :
    runW n (putBox n (boxOf x)) = .ok (bytesOf x) := by
  have key : EmitsFull (putBox n (boxOf x)) ([] ++ (be 4 n ++ be 4 x.2.2.1.1 ++ be 1 x.1 ++ be 3 x.2.1 ++
      (be 4 x.2.2.1.2.1 ++ (be 4 x.2.2.1.2.2.length ++ (x.2.2.1.2.2.flatMap (be 4) ++ x.2.2.2))))) := by
    have h0 : (boxOf x).type ≠ 0 := Nat.pos_iff_ne_zero.1 ht
    unfold putBox
    rw [if_neg h0]
    exact emits_skip.then ((emits_serFull _ _ _ _).then ((emits_put32 _).then ((emits_put32 _).then
      ((Emits.each _ fun x _ => emits_put32 x).then (emits_bytes _).thenAssert))))
  have e : [] ++ (be 4 n ++ be 4 x.2.2.1.1 ++ be 1 x.1 ++ be 3 x.2.1 ++
      (be 4 x.2.2.1.2.1 ++ (be 4 x.2.2.1.2.2.length ++ (x.2.2.1.2.2.flatMap (be 4) ++ x.2.2.2)))) = bytesOf x := by
    rw [group_eq, hn, length_group]
    simp only [List.append_assoc, List.nil_append]
  rw [e] at key
  exact key.runW hn.symm hf

theorem boxSize_eq (x : Item) (hd : x.2.2.2 = []) (hf : (bytesOf x).length < 2 ^ 32) : boxSize (boxOf x) = (bytesOf x).length := by
  rw [length_group] at *
  have : (boxOf x).entities = x.2.2.1.2.2 := rfl
  unfold boxSize
  rw [this]
  rw [hd] at *
  simp only [List.length_nil] at *
  omega

theorem write_layout (l : List Item) (hd : ∀ x ∈ l, x.2.2.2 = []) (hf : Fits l) : write (l.map boxOf) = .ok (layout l) := by
  have hsz := hf.size
  have hlen := length_layout l
  have hg : ∀ x ∈ l, boxSize (boxOf x) = (bytesOf x).length := fun x h => boxSize_eq x (hd x h) (by have := item_le h; omega)
  have hsum : ((l.map boxOf).map boxSize).sum = (l.flatMap bytesOf).length := by
    rw [List.length_flatMap, List.map_map]
    congr 1
    exact List.map_congr_left hg
  unfold write
  rw [hsum]
  have e1 : w32(8 + (l.flatMap bytesOf).length) = (layout l).length := by omega
  simp only [e1]
  generalize hn : (layout l).length = n at *
  have heach : Emits (W.each (fun b => nested (boxSize b) (putBox (boxSize b) b)) (l.map boxOf)) (l.flatMap bytesOf) := by
    have h : ∀ x ∈ l, Emits (nested (boxSize (boxOf x)) (putBox (boxSize (boxOf x)) (boxOf x))) (bytesOf x) := by
      intro x hx
      have := item_le hx
      refine emits_nested (put_group x (hf.type x hx).1 (hg x hx) ?_) (hg x hx).symm
      rw [hg x hx]; omega
    clear hsum hn hlen hsz hf hg e1 hd
    induction l with
    | nil => exact emits_skip
    | cons x l ih =>
      simp only [List.map_cons, W.each, List.flatMap_cons]
      exact (h x (by simp)).seq (ih fun y hy => h y (by simp [hy]))
  have hfull := (emits_serBase n typeGrpl).then heach.thenAssert
  have e2 : layout l = be 4 n ++ be 4 typeGrpl ++ l.flatMap bytesOf := by
    have e3 : typeGrpl = fcc 'g' 'r' 'p' 'l' := by decide
    have e4 : 8 + (l.flatMap bytesOf).length = n := by omega
    rw [← e4, e3]
    rfl
  rw [e2]
  refine EmitsFull.runW hfull ?_ (by omega)
  rw [← e2]; exact hn

/-! ## Reading -/

theorem parses_group {l : List Item} (hf : Fits l) {x : Item} (hx : x ∈ l) : Parses (getAtom parseBox) (bytesOf x) (boxOf x) := by
  have hlen := length_group x
  have hle := item_le hx
  have hsz := hf.size
  rw [length_layout] at hsz
  rw [group_eq]
  generalize hpl : be 1 x.1 ++ be 3 x.2.1 ++ (be 4 x.2.2.1.2.1 ++ (be 4 x.2.2.1.2.2.length ++ (x.2.2.1.2.2.flatMap (be 4) ++ x.2.2.2))) = payload
  have hpay : 20 + 4 * x.2.2.1.2.2.length + x.2.2.2.length = 8 + payload.length := by
    rw [← hpl]
    simp only [List.length_append, be_length]
    rw [flatMap_length_const (c := 4) _ (fun _ _ => be_length _ _)]
    omega
  rw [hpay]
  refine parses_getAtom ?_ (by omega) (hf.type x hx).2.1 (hf.type x hx).2.2.2.2
  have key : ∀ N, N = 8 + payload.length → ParsesAt (parseBox ⟨N, x.2.2.1.1, [], 0, 8⟩) 8 payload (boxOf x) := by
    intro N hN
    rw [← hpl]
    unfold parseBox
    refine ParsesAt.bind ((parses_versionFlags (hf.version x hx).1 (hf.version x hx).2).at _) ?_
    refine ParsesAt.bind ((parses_get32' (hf.id x hx)).at _) ?_
    refine ParsesAt.bind ((parses_get32' (by omega)).at _) ?_
    refine ParsesAt.bind (((parses_repeat _ _ fun e he => parses_get32' (hf.entities x hx e he)) rfl).at _) ?_
    refine parsesAt_bytesRead ?_
    refine ParsesAt.bind_nil ((parses_getBytes (bs := x.2.2.2) ?_).at _) ?_
    · simp only [List.length_append, be_length]
      rw [flatMap_length_const (c := 4) _ (fun _ _ => be_length _ _)]
      omega
    · refine parsesAt_bytesRead ?_
      rw [if_neg (by
        simp only [List.length_append, be_length]
        rw [flatMap_length_const (c := 4) _ (fun _ _ => be_length _ _)]
        omega)]
      exact (parses_pure _).at _
  exact key _ rfl

theorem parsesAt_loop {sz : Nat} (l : List Item) : ∀ (acc : List Box) (fuel k : Nat), l.length < fuel →
    (∀ x ∈ l, Parses (getAtom parseBox) (bytesOf x) (boxOf x)) → (∀ x ∈ l, x.2.2.1.1 ≠ typeFree ∧ x.2.2.1.1 ≠ typeSkip) →
    k + (l.flatMap bytesOf).length = sz →
    ParsesAt (loop sz fuel acc) k (l.flatMap bytesOf) (acc ++ l.map boxOf) := by
  induction l with
  | nil =>
    intro acc fuel k hf _ _ hk
    obtain ⟨f, rfl⟩ : ∃ f, fuel = f + 1 := ⟨fuel - 1, by simp at hf; omega⟩
    unfold loop
    refine parsesAt_bytesRead ?_
    rw [if_neg (by simp at hk; omega)]
    simpa using (parses_pure acc).at k
  | cons x l ih =>
    intro acc fuel k hf h1 h2 hk
    obtain ⟨f, rfl⟩ : ∃ f, fuel = f + 1 := ⟨fuel - 1, by simp at hf; omega⟩
    simp only [List.flatMap_cons, List.length_append] at hk ⊢
    have h8 := length_group x
    unfold loop
    refine parsesAt_bytesRead ?_
    rw [if_pos (by omega)]
    refine ParsesAt.bind ((h1 x (by simp)).at _) ?_
    have ht := h2 x (by simp)
    rw [if_neg (by
      show ¬ (x.2.2.1.1 = typeFree ∨ x.2.2.1.1 = typeSkip)
      exact fun h => h.elim ht.1 ht.2)]
    have := ih (acc ++ [boxOf x]) f (k + (bytesOf x).length) (by simp at hf; omega) (fun y hy => h1 y (by simp [hy]))
      (fun y hy => h2 y (by simp [hy])) (by omega)
    simpa using this

theorem length_le_flatMap (l : List Item) : l.length ≤ (l.flatMap bytesOf).length := by
  induction l with
  | nil => simp
  | cons x l ih =>
    have := length_group x
    simp only [List.flatMap_cons, List.length_append, List.length_cons]
    omega

theorem parse_layout (l : List Item) (hf : Fits l) (rest : Bytes) :
    ∃ h, parseAtom parse (layout l ++ rest) = .ok (l.map boxOf, h, rest) := by
  have hsz := hf.size
  rw [length_layout] at hsz
  have key : ∀ N, N = 8 + (l.flatMap bytesOf).length → ParsesAt (parse ⟨N, fcc 'g' 'r' 'p' 'l', [], 0, 8⟩) 8
      (l.flatMap bytesOf) (l.map boxOf) := by
    intro N hN
    unfold parse
    intro r
    have hl := length_le_flatMap l
    have := parsesAt_loop (sz := N) l [] ((l.flatMap bytesOf ++ r).length + 1) 8
      (by simp only [List.length_append]; omega) (fun x hx => parses_group hf hx)
      (fun x hx => ⟨(hf.type x hx).2.2.1, (hf.type x hx).2.2.2.1⟩) (by omega) r
    simp only [P.bind_apply, P.available]
    rw [this]
    simp only [List.nil_append, P.bytesRead]
    rw [if_neg (by omega)]
    rfl
  have := parseAtom_small (key (8 + (l.flatMap bytesOf).length) rfl) rfl (by omega) (by decide) (by decide) rest
  exact ⟨_, this⟩

theorem boxOf_plain (l : List Group) : (plain l).map boxOf = l.map Box.of := by
  unfold plain
  rw [List.map_map]
  rfl

/-- **C61, in a file.** The groups made by any sequence of calls are written as specified, and reading them gives the
same groups, to which the calls can go on as before. -/
theorem c61_file (calls : List Call) (hne : groups calls ≠ []) (hf : Fits (plain (groups calls))) :
    ∃ l, run calls none = some l ∧ write l = .ok (layout (plain (groups calls))) ∧
      ∀ rest, ∃ h, parseAtom parse (layout (plain (groups calls)) ++ rest) = .ok (l, h, rest) := by
  obtain ⟨h, -⟩ := run_holds calls (s := none) (l := []) (.inl ⟨rfl, rfl⟩) (by simp)
  rcases h with ⟨-, h⟩ | h
  · exact absurd h hne
  · refine ⟨_, h, ?_, fun rest => ?_⟩
    · have := write_layout (plain (groups calls)) (by unfold plain; simp) hf
      rw [boxOf_plain] at this
      exact this
    · have := parse_layout _ hf rest
      rw [boxOf_plain] at this
      exact this

/-- **C61, files by others.** Groups of any types, versions and flags, with further data, are read; without such data they
are written again as they were (with it they cannot be written, `c61_not_rewritten`). -/
theorem c61_read (l : List Item) (hf : Fits l) (rest : Bytes) :
    ∃ boxes h, parseAtom parse (layout l ++ rest) = .ok (boxes, h, rest) ∧
      entries (some boxes) = .ok (l.map fun x => x.2.2.1) ∧
      (∀ b ∈ boxes, ∃ x ∈ l, b.data = x.2.2.2) ∧
      ((∀ x ∈ l, x.2.2.2 = []) → write boxes = .ok (layout l)) := by
  obtain ⟨h, e⟩ := parse_layout l hf rest
  refine ⟨_, h, e, ?_, ?_, fun hd => write_layout l hd hf⟩
  · simp only [entries, List.map_map]
    rfl
  · intro b hb
    obtain ⟨x, hx, rfl⟩ := List.mem_map.1 hb
    exact ⟨x, hx, rfl⟩

/-! ## What is not written again -/

theorem put_data (x : Item) (hd : x.2.2.2 ≠ []) (ht : 0 < x.2.2.1.1) (hf : (bytesOf x).length < 2 ^ 32) :
    runW (boxSize (boxOf x)) (putBox (boxSize (boxOf x)) (boxOf x)) = .err .ioErr := by
  have hl := length_group x
  have hp : 0 < x.2.2.2.length := List.length_pos_iff.2 hd
  have hn : boxSize (boxOf x) = 20 + 4 * x.2.2.1.2.2.length := by
    have : (boxOf x).entities = x.2.2.1.2.2 := rfl
    unfold boxSize
    rw [this]
    omega
  generalize boxSize (boxOf x) = n at *
  have h0 : (boxOf x).type ≠ 0 := Nat.pos_iff_ne_zero.1 ht
  have key := (emits_serFull n (boxOf x).type (boxOf x).version (boxOf x).flags).seq ((emits_put32 (boxOf x).id).seq
    ((emits_put32 (boxOf x).entities.length).seq ((Emits.each (boxOf x).entities fun e _ => emits_put32 e).seq (emits_bytes (boxOf x).data))))
  have hk := key ⟨[], n⟩ (by simp) (by
    simp only [List.length_append, be_length]
    rw [flatMap_length_const (c := 4) _ (fun _ _ => be_length _ _)]
    show 0 + (4 + 4 + 1 + 3 + (4 + (4 + (4 * x.2.2.1.2.2.length + x.2.2.2.length)))) < _
    omega)
  rw [if_neg (by
    simp only [List.length_append, be_length]
    rw [flatMap_length_const (c := 4) _ (fun _ _ => be_length _ _)]
    show ¬ 0 + (4 + 4 + 1 + 3 + (4 + (4 + (4 * x.2.2.1.2.2.length + x.2.2.2.length)))) ≤ n
    omega)] at hk
  have e : putBox n (boxOf x) ⟨[], n⟩ = ((serFull n (boxOf x).type (boxOf x).version (boxOf x).flags ;; put32 (boxOf x).id ;;
      put32 (boxOf x).entities.length ;; W.each put32 (boxOf x).entities ;; putBytes (boxOf x).data) ⟨[], n⟩).bind W.assertFull := by
    unfold putBox
    rw [if_neg h0]
    have hassoc : ∀ (a b c : W), (a ;; (b ;; c)) = ((a ;; b) ;; c) := by
      intro a b c
      funext s
      unfold W.seq
      cases a s <;> rfl
    have hskip : ∀ a : W, (W.skip ;; a) = a := fun a => rfl
    rw [hskip]
    simp only [hassoc]
    rfl
  unfold runW
  rw [e, hk]
  rfl

/-- Groups that are read, one of them with further data, cannot be written: the size of the box does not count the
data. -/
theorem c61_not_rewritten (l : List Item) (hd : ∃ x ∈ l, x.2.2.2 ≠ []) (hf : Fits l) (rest : Bytes) :
    ∃ boxes h, parseAtom parse (layout l ++ rest) = .ok (boxes, h, rest) ∧ write boxes = .err .ioErr := by
  obtain ⟨h, e⟩ := parse_layout l hf rest
  refine ⟨_, h, e, ?_⟩
  have hsz := hf.size
  have hlen := length_layout l
  have hle : ∀ x ∈ l, boxSize (boxOf x) ≤ (bytesOf x).length := by
    intro x hx
    have h1 := item_le hx
    have h2 := length_group x
    have : (boxOf x).entities = x.2.2.1.2.2 := rfl
    unfold boxSize
    rw [this]
    omega
  have hsum : ((l.map boxOf).map boxSize).sum ≤ (l.flatMap bytesOf).length := by
    clear hd hf h e hsz hlen
    induction l with
    | nil => simp
    | cons x l ih =>
      have h1 := hle x (by simp)
      have h2 := ih fun y hy => hle y (by simp [hy])
      simp only [List.map_cons, List.sum_cons, List.flatMap_cons, List.length_append]
      omega
  unfold write
  generalize hS : ((l.map boxOf).map boxSize).sum = S at *
  simp only []
  have e1 : w32(8 + S) = 8 + S := by omega
  rw [e1]
  -- the loop stops
  have hloop : ∀ (s : WS), s.out.length + S ≤ s.size → s.size < 2 ^ 32 →
      W.each (fun b => nested (boxSize b) (putBox (boxSize b) b)) (l.map boxOf) s = .err .ioErr := by
    have ht : ∀ x ∈ l, 0 < x.2.2.1.1 := fun x hx => (hf.type x hx).1
    have hb : ∀ x ∈ l, (bytesOf x).length < 2 ^ 32 := fun x hx => by have := item_le hx; omega
    clear e1 hsum hle hlen hsz e h hf
    induction l generalizing S with
    | nil => simp at hd
    | cons x l ih =>
      intro s h1 h2
      simp only [List.map_cons, List.sum_cons] at hS
      simp only [List.map_cons, W.each, W.seq]
      have hin : ¬ w32(s.out.length + boxSize (boxOf x)) > s.size := by omega
      by_cases hx : x.2.2.2 = []
      · have hn := boxSize_eq x hx (hb x (by simp))
        have hput := put_group x (ht x (by simp)) hn (by rw [hn]; exact hb x (by simp))
        have : nested (boxSize (boxOf x)) (putBox (boxSize (boxOf x)) (boxOf x)) s = .ok { s with out := s.out ++ bytesOf x } := by
          unfold nested
          rw [if_neg hin, hput]
          rfl
        rw [this]
        refine ih (by
          obtain ⟨y, hy, hd⟩ := hd
          rcases List.mem_cons.1 hy with rfl | hy
          · exact absurd hx hd
          · exact ⟨y, hy, hd⟩) _ rfl (fun y hy => ht y (by simp [hy])) (fun y hy => hb y (by simp [hy])) _ ?_ h2
        simp only [List.length_append]
        omega
      · have : nested (boxSize (boxOf x)) (putBox (boxSize (boxOf x)) (boxOf x)) s = .err .ioErr := by
          unfold nested
          rw [if_neg hin, put_data x hx (ht x (by simp)) (hb x (by simp))]
          rfl
        rw [this]
        rfl
  have hser := emits_serBase (8 + S) typeGrpl ⟨[], 8 + S⟩ (by simp) (by simp)
  rw [if_pos (by simp)] at hser
  have hl := hloop ⟨[] ++ (be 4 (8 + S) ++ be 4 typeGrpl), 8 + S⟩ (by simp) (by simp only []; omega)
  have hall : (serBase (8 + S) typeGrpl ;; W.each (fun b => nested (boxSize b) (putBox (boxSize b) b)) (l.map boxOf) ;; W.assertFull)
      ⟨[], 8 + S⟩ = .err .ioErr := by
    show (serBase (8 + S) typeGrpl ⟨[], 8 + S⟩).bind _ = _
    rw [hser]
    show (W.each _ _ _).bind _ = _
    rw [hl]
    rfl
  unfold runW
  rw [hall]

/-! ## A case -/

/-- Two groups; the second of the same ID is refused, and so is an entity of a group that is not there. -/
def sample : List Call := [.new (fcc 'a' 'l' 't' 'r') 7, .add 7 1, .new (fcc 'e' 'q' 'i' 'v') 9, .add 9 5, .add 7 2, .new (fcc 's' 't' 'e' 'r') 7,
  .add 8 1]

example : groups sample = [(fcc 'a' 'l' 't' 'r', 7, [1, 2]), (fcc 'e' 'q' 'i' 'v', 9, [5])] ∧ Fits (plain (groups sample)) :=
  ⟨by decide, by decide, by decide, by decide, by decide, by decide⟩

/-- A group with further data. -/
example : Fits [(0, 0, (fcc 'a' 'l' 't' 'r', 7, [1, 2]), []), (1, 3, (fcc 'p' 'r' 'g' 'r', 8, [4]), [1, 2, 3])] :=
  ⟨by decide, by decide, by decide, by decide, by decide⟩

end Verif.Grpl
