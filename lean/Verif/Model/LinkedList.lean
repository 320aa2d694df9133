import Verif.Core.Basic

/-!
# The internal linked list: MP4LinkedList.c

A pointer-level model: list items live in a heap indexed by addresses, `free` removes the cell,
every dereference of a missing cell (NULL, dangling or freed pointer) and every failed `assert`
is undefined behaviour. `calloc` never fails (allocation failure is not modelled).
-/

namespace Verif.LL

/-- `MP4ListItem`: MP4LinkedList.h. -/
structure Node (α : Type u) where
  data : α
  link : Option Nat

/-- `MP4List`: MP4LinkedList.h: `head`, `tail`, `foundEntry`, `foundEntryNumber` (an `s32`
always converted to `u32` before use) and `entryCount`, plus the heap and the allocator's next
fresh address. -/
structure LList (α : Type u) where
  heap : Nat → Option (Node α)
  next : Nat
  head : Option Nat
  tail : Option Nat
  found : Option Nat
  foundNum : Nat
  count : Nat

/-- Write one heap cell. -/
def store {α : Type u} (h : Nat → Option (Node α)) (i : Nat) (n : Option (Node α)) :
    Nat → Option (Node α) :=
  fun j => if j = i then n else h j

/-- Dereference a pointer. -/
def deref {α : Type u} (h : Nat → Option (Node α)) (p : Option Nat) : Res (Node α) :=
  match p with
  | none => .ub
  | some i => match h i with
    | none => .ub
    | some n => .ok n

/-- `MP4MakeLinkedList`: MP4LinkedList.c 31-44. -/
def make {α : Type u} : LList α :=
  { heap := fun _ => none, next := 0, head := none, tail := none, found := none,
    foundNum := 4294967295, count := 0 }

/-- `MP4PrependListEntry`: MP4LinkedList.c 46-72. -/
def prepend {α : Type u} (l : LList α) (item : α) : Res (LList α) :=
  let entry := l.next
  match l.head with
  | none => .ok { l with
      heap := store l.heap entry (some ⟨item, none⟩), next := l.next + 1,
      count := 1, tail := some entry, head := some entry, foundNum := 0, found := some entry }
  | some h => .ok { l with
      heap := store l.heap entry (some ⟨item, some h⟩), next := l.next + 1,
      count := w32(l.count + 1), head := some entry, foundNum := 0, found := some entry }

/-- `MP4AddListEntry`: MP4LinkedList.c 74-104. -/
def add {α : Type u} (l : LList α) (item : α) : Res (LList α) :=
  let entry := l.next
  match l.head with
  | none => .ok { l with
      heap := store l.heap entry (some ⟨item, none⟩), next := l.next + 1,
      count := 1, head := some entry, tail := some entry,
      foundNum := 0, found := some entry }
  | some _ =>
    match l.tail with
    | none => .ub
    | some t =>
      match store l.heap entry (some ⟨item, none⟩) t with
      | none => .ub
      | some n => .ok { l with
          heap := store (store l.heap entry (some ⟨item, none⟩)) t (some ⟨n.data, some entry⟩)
          next := l.next + 1
          count := w32(l.count + 1), tail := some entry,
          foundNum := w32(w32(l.count + 1) + 4294967295), found := some entry }

/-- `MP4GetListEntryCount`: MP4LinkedList.c 134-148. -/
def getCount {α : Type u} (l : LList α) : Nat := l.count

/-- The loop at MP4LinkedList.c 166-170, run `k` times; the `assert` is part of it. -/
def walk {α : Type u} (h : Nat → Option (Node α)) : Nat → Option Nat → Res (Option Nat)
  | 0, p => .ok p
  | k + 1, p =>
    match deref h p with
    | .ok n => if n.link.isNone then .ub else walk h k n.link
    | _ => .ub

/-- `MP4GetListEntry`: MP4LinkedList.c 150-181. -/
def get {α : Type u} (l : LList α) (itemNumber : Nat) : Res (α × LList α) :=
  if itemNumber ≥ l.count then .err .badParam else
  let l := if itemNumber < l.foundNum then { l with foundNum := 0, found := l.head } else l
  match walk l.heap (itemNumber - l.foundNum) l.found with
  | .ok entry =>
    match deref l.heap entry with
    | .ok n =>
      if itemNumber = 0 ∧ entry ≠ l.head then .ub
      else .ok (n.data, { l with foundNum := itemNumber, found := entry })
    | _ => .ub
  | _ => .ub

/-- The loop at MP4LinkedList.c 194-199: returns `(previous, entry)`. -/
def walk2 {α : Type u} (h : Nat → Option (Node α)) :
    Nat → Option Nat → Option Nat → Res (Option Nat × Option Nat)
  | 0, prev, p => .ok (prev, p)
  | k + 1, _, p =>
    match deref h p with
    | .ok n => if n.link.isNone then .ub else walk2 h k p n.link
    | _ => .ub

/-- `MP4DeleteListEntry`: MP4LinkedList.c 183-218. -/
def delete {α : Type u} (l : LList α) (itemNumber : Nat) : Res (LList α) :=
  if itemNumber ≥ l.count then .err .badParam else
  match walk2 l.heap itemNumber l.head l.head with
  | .ok (previous, some e) =>
    match l.heap e with
    | none => .ub
    | some n =>
      let heap1 := store l.heap e none
      let l' : Res (LList α) :=
        if itemNumber = 0 then .ok { l with heap := heap1, head := n.link }
        else match previous with
          | none => .ub
          | some q => match heap1 q with
            | none => .ub
            | some m => .ok { l with heap := store heap1 q (some ⟨m.data, n.link⟩) }
      match l' with
      | .ok l' =>
        .ok { l' with
          tail := if itemNumber = l.count - 1 then previous else l.tail
          foundNum := 0
          found := l'.head
          count := w32(l.count + 4294967295) }
      | _ => .ub
  | _ => .ub

/-- The calls clients make on a list. -/
inductive Op (α : Type u)
  | append (a : α)
  | prepend (a : α)
  | get (i : Nat)
  | delete (i : Nat)
  | count

/-- What a call returns. -/
inductive Out (α : Type u)
  | none
  | item (a : α)
  | num (n : Nat)

/-- One call on the pointer-level list. An error leaves the list as it was. -/
def step {α : Type u} (l : LList α) : Op α → Res (Out α × LList α)
  | .append a => match add l a with
    | .ok l' => .ok (.none, l') | .err e => .err e | .ub => .ub
  | .prepend a => match prepend l a with
    | .ok l' => .ok (.none, l') | .err e => .err e | .ub => .ub
  | .get i => match get l i with
    | .ok (a, l') => .ok (.item a, l') | .err e => .err e | .ub => .ub
  | .delete i => match delete l i with
    | .ok l' => .ok (.none, l') | .err e => .err e | .ub => .ub
  | .count => .ok (.num (getCount l), l)

/-- The answers of a sequence of calls; undefined behaviour ends the run. -/
def run {α : Type u} (l : LList α) : List (Op α) → List (Res (Out α))
  | [] => []
  | op :: ops => match step l op with
    | .ok (o, l') => .ok o :: run l' ops
    | .err e => .err e :: run l ops
    | .ub => [.ub]

end Verif.LL
