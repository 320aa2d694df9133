import Verif.Model.Primary
import Verif.Props.C83
import Verif.Props.C86

/-!
# C106: the primary data of a meta box, or its primary item

What a program gives is as in C83 (`Give`, `firstData`, `lastItem`): data in boxes of a type, and primary items.
-/

namespace Verif.Primary

open MetaBox (Give Part gives newMeta firstData lastItem Single)
open Handler (Fs Ref Mapping Keeps Opened freshBox Inside pieces)

variable {α : Type}

/-! ## Lemmas -/

theorem find_first {pre post : List Iloc.Item} {a : Iloc.Item} (h : ∀ x ∈ pre, x.id ≠ a.id) : find (some (pre ++ a :: post)) a.id = .ok a := by
  have : (pre ++ a :: post).find? (fun x => x.id == a.id) = some a := by
    rw [List.find?_append, List.find?_eq_none.2 (fun x hx => by simpa using h x hx)]
    simp
  unfold find
  simp only [this]

theorem find_none {items : Option (List Iloc.Item)} {i : Nat} (h : ∀ l, items = some l → ∀ x ∈ l, x.id ≠ i) : find items i = .err .notFound := by
  unfold find
  cases items with
  | none => rfl
  | some l =>
    have : l.find? (fun x => x.id == i) = none := List.find?_eq_none.2 fun x hx => by simpa using h l rfl x hx
    simp only [this]

/-! ## The property -/

/-- **C106.** The data that was given in a box of the type, the first of them, whatever the items are. -/
theorem c106_data (fs : Fs) (s : Handler.Box) (items : Option (List Iloc.Item)) (handler : Nat) (gs : List Give) (hg : ∀ g ∈ gs, g.Ok) (t : Nat)
    (ht : ¬ Single t) (full : Bool) (b : Bytes) (hb : b ≠ []) (h : firstData t gs = some (full, b)) :
    data fs s (gives (newMeta handler : List (Nat × Part α)) gs).1 items t full = .ok (b.map some) := by
  obtain ⟨-, h1, -, -⟩ := MetaBox.c83_data (α := α) handler gs hg
  unfold data
  rw [h1 t full ht, h]
  cases full <;> simp [MetaBox.gets, hb]

/-- **C106.** Without such data, the data of the item that was made the primary one last: the pieces of its file, as in C86. (Missing: as there, several
extents of which the first does not start at the base; other construction methods.) -/
theorem c106_item_partial (fs : Fs) (st : Option Mapping) (own dir : Option Bytes) (ho : Opened st own dir) (refs : List Ref) (mdat : Option Mdat.T)
    (handler : Nat) (gs : List Give) (hg : ∀ g ∈ gs, g.Ok) (t : Nat) (ht : ¬ Single t) (full : Bool) (h : firstData t gs = none)
    (pre post : List Iloc.Item) (a : Iloc.Item) (ha : lastItem gs = some a.id) (hp : ∀ x ∈ pre, x.id ≠ a.id)
    (r : Ref) (f : Bytes) (hi : 0 < a.dref) (hr : refs[a.dref - 1]? = some r) (hk : Keeps fs own dir r f) (es : List Iloc.Extent)
    (he : a.extents = some es) (hin : Inside f a.base es) (hl : (es.map (·.length)).sum < 2 ^ 32) (hfirst : es.length ≤ 1 ∨ ∀ e, es.head? = some e → e.offset = 0) :
    data fs (freshBox st (some refs) mdat) (gives (newMeta handler : List (Nat × Part α)) gs).1 (some (pre ++ a :: post)) t full =
      .ok ((pieces f a.base es).map some) := by
  obtain ⟨-, h1, h2, -⟩ := MetaBox.c83_data (α := α) handler gs hg
  unfold data
  rw [h1 t full ht, h, h2, ha]
  show (find (some (pre ++ a :: post)) a.id).bind _ = _
  rw [find_first hp]
  exact Handler.c86_items_partial fs st own dir ho refs mdat a r f hi hr hk es he hin hl hfirst

/-- **C106.** Whatever the primary item is, its data is what the item by itself gives, errors included. -/
theorem c106_same (fs : Fs) (s : Handler.Box) (handler : Nat) (gs : List Give) (hg : ∀ g ∈ gs, g.Ok) (t : Nat) (ht : ¬ Single t) (full : Bool)
    (h : firstData t gs = none) (pre post : List Iloc.Item) (a : Iloc.Item) (ha : lastItem gs = some a.id) (hp : ∀ x ∈ pre, x.id ≠ a.id) :
    data fs s (gives (newMeta handler : List (Nat × Part α)) gs).1 (some (pre ++ a :: post)) t full = (s.item fs a).2 := by
  obtain ⟨-, h1, h2, -⟩ := MetaBox.c83_data (α := α) handler gs hg
  unfold data
  rw [h1 t full ht, h, h2, ha]
  show (find (some (pre ++ a :: post)) a.id).bind _ = _
  rw [find_first hp]
  rfl

/-- **C106.** Without such data and without a primary item, or with one that is not among the items, nothing is found. -/
theorem c106_nothing (fs : Fs) (s : Handler.Box) (items : Option (List Iloc.Item)) (handler : Nat) (gs : List Give) (hg : ∀ g ∈ gs, g.Ok) (t : Nat)
    (ht : ¬ Single t) (full : Bool) (h : firstData t gs = none) (hi : ∀ i, lastItem gs = some i → ∀ l, items = some l → ∀ x ∈ l, x.id ≠ i) :
    data fs s (gives (newMeta handler : List (Nat × Part α)) gs).1 items t full = .err .notFound := by
  obtain ⟨-, h1, h2, -⟩ := MetaBox.c83_data (α := α) handler gs hg
  unfold data
  rw [h1 t full ht, h, h2]
  cases hl : lastItem gs with
  | none => rfl
  | some i =>
    show (find items i).bind _ = _
    rw [find_none (hi i hl)]
    rfl

/-- **C106, the code.** Data of no bytes is an error, also if there is a primary item. -/
theorem c106_not_empty (fs : Fs) (s : Handler.Box) (items : Option (List Iloc.Item)) (handler : Nat) (gs : List Give) (hg : ∀ g ∈ gs, g.Ok) (t : Nat)
    (ht : ¬ Single t) (full : Bool) (h : firstData t gs = some (full, [])) :
    data fs s (gives (newMeta handler : List (Nat × Part α)) gs).1 items t full = .err .badData := by
  obtain ⟨-, h1, -, -⟩ := MetaBox.c83_data (α := α) handler gs hg
  unfold data
  rw [h1 t full ht, h]
  cases full <;> simp [MetaBox.gets]

/-! ## Examples -/

/-- XML with version and flags, and two primary items one after the other. -/
def sample : List Give := [.item 4, .data (fcc 'x' 'm' 'l' ' ') true [60, 47, 62], .item 9]

theorem sample_ok : ∀ g ∈ sample, g.Ok := by
  intro g hg
  simp only [sample, List.mem_cons, List.not_mem_nil, or_false] at hg
  rcases hg with rfl | rfl | rfl <;> simp only [Give.Ok, Single] <;> decide

theorem sample_opened : Opened (some Handler.sampleStream) (some [1, 2, 3, 4, 5, 6]) (some (Handler.ascii "d/")) :=
  ⟨rfl, rfl, rfl, rfl, fun d hd => by
    have h : Handler.ascii "d/" = [100, 47] := by decide +kernel
    rw [h] at hd
    cases hd
    unfold Str.Text
    decide⟩

def sampleBox : Handler.Box := freshBox (some Handler.sampleStream) (some Handler.sampleRefs) none

example : data Handler.sampleFs sampleBox (gives (newMeta (fcc 'm' 'p' '7' 't') : List (Nat × Part Unit)) sample).1 none (fcc 'x' 'm' 'l' ' ') true =
    .ok [some 60, some 47, some 62] :=
  c106_data _ _ none _ _ sample_ok (fcc 'x' 'm' 'l' ' ') (by unfold Single; decide) true [60, 47, 62] (by decide) (by decide)

/-- Asked for another type, it is item 9, with the first and the last byte of the file `d/a`. -/
example : data Handler.sampleFs sampleBox (gives (newMeta (fcc 'm' 'p' '7' 't') : List (Nat × Part Unit)) sample).1
    (some ([⟨4, 0, 1, 0, some [⟨0, 0, 2⟩]⟩] ++ ⟨9, 0, 2, 0, some [⟨0, 0, 1⟩, ⟨0, 2, 1⟩]⟩ :: [])) (fcc 'b' 'x' 'm' 'l') true = .ok [some 11, some 13] :=
  c106_item_partial Handler.sampleFs _ _ _ sample_opened Handler.sampleRefs none (fcc 'm' 'p' '7' 't') sample sample_ok (fcc 'b' 'x' 'm' 'l')
    (by unfold Single; decide) true (by decide) [⟨4, 0, 1, 0, some [⟨0, 0, 2⟩]⟩] [] ⟨9, 0, 2, 0, some [⟨0, 0, 1⟩, ⟨0, 2, 1⟩]⟩ (by decide)
    (by decide) _ [11, 12, 13] (by decide) rfl (.other _ Handler.sample_a (by decide +kernel) (by decide)) [⟨0, 0, 1⟩, ⟨0, 2, 1⟩] rfl
    (by unfold Inside; decide) (by decide) (.inr (by simp))

example : data Handler.sampleFs sampleBox (gives (newMeta (fcc 'm' 'p' '7' 't') : List (Nat × Part Unit)) sample).1
    (some [⟨4, 0, 1, 0, some [⟨0, 0, 2⟩]⟩]) (fcc 'b' 'x' 'm' 'l') true = .err .notFound :=
  c106_nothing _ _ _ _ _ sample_ok (fcc 'b' 'x' 'm' 'l') (by unfold Single; decide) _ (by decide) (fun i hi l hl x hx => by
    cases hl
    simp only [List.mem_cons, List.not_mem_nil, or_false] at hx
    rw [show lastItem sample = some 9 from rfl] at hi
    cases hi
    rw [hx]
    decide)

example : data Handler.sampleFs sampleBox (gives (newMeta (fcc 'm' 'p' '7' 't') : List (Nat × Part Unit)) [.item 4, .data (fcc 'b' 'x' 'm' 'l') false []]).1
    (some [⟨4, 0, 1, 0, some [⟨0, 0, 2⟩]⟩]) (fcc 'b' 'x' 'm' 'l') false = .err .badData :=
  c106_not_empty _ _ _ _ _ (by
    intro g hg
    simp only [List.mem_cons, List.not_mem_nil, or_false] at hg
    rcases hg with rfl | rfl <;> simp only [Give.Ok, Single] <;> decide) (fcc 'b' 'x' 'm' 'l') (by unfold Single; decide) _ (by decide)

end Verif.Primary
