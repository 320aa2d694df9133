import Verif.Model.Brand
import Verif.Spec.Brand
import Verif.Lemmas.Auto
import Verif.Lemmas.Fails

/-!
# C62: Brands are kept and come back from a file
-/

namespace Verif.Brand

def call (s : S) : Call → S
  | .set b n => setBrand s b n
  | .add b => addStandard s b

def run (s : S) (calls : List Call) : S := calls.foldl call s

/-! ## In memory -/

def addNew (l : List Nat) (b : Nat) : List Nat := if b ∈ l then l else l ++ [b]

theorem addStandard_eq (s : S) {b : Nat} (hb : b ≠ 0) : addStandard s b = { s with list := addNew s.list b } := by
  unfold addStandard getStandard addNew
  by_cases h : b ∈ s.list
  · simp only [if_pos h, if_neg hb]
  · simp only [if_neg h, if_true]

theorem run_eq (calls : List Call) : ∀ (s : S), (∀ c ∈ calls, c.brand ≠ 0) →
    run s calls = { s with brand := (major (s.brand, s.minor) calls).1, minor := (major (s.brand, s.minor) calls).2,
                           list := (named s.brand calls).foldl addNew s.list } := by
  induction calls with
  | nil => intro s _; rfl
  | cons c cs ih =>
    intro s h
    have hc := h c (by simp)
    have ht : ∀ c ∈ cs, c.brand ≠ 0 := fun c hc => h c (by simp [hc])
    show run (call s c) cs = _
    rw [ih _ ht]
    cases c with
    | add b =>
      have hb : b ≠ 0 := hc
      simp only [call, addStandard_eq s hb, major, named, List.foldl_cons]
    | set b n =>
      have hb : b ≠ 0 := hc
      simp only [call, setBrand, major, named]
      by_cases h0 : s.brand = 0
      · simp only [h0, ne_eq, not_true_eq_false, if_false, if_true, addStandard_eq _ hb, List.nil_append, List.foldl_cons]
      · simp only [h0, ne_eq, not_false_eq_true, if_true, if_false, addStandard_eq _ hb, addStandard_eq _ h0,
          List.cons_append, List.nil_append, List.foldl_cons]

theorem foldl_addNew (xs : List Nat) : ∀ l : List Nat, xs.foldl addNew l = l ++ (firsts xs).filter (· ∉ l) := by
  induction xs with
  | nil => intro l; simp [firsts]
  | cons b xs ih =>
    intro l
    rw [List.foldl_cons, ih]
    have e : firsts (b :: xs) = b :: (firsts xs).filter (· ≠ b) := rfl
    rw [e, List.filter_cons, List.filter_filter]
    by_cases h : b ∈ l
    · have e2 : addNew l b = l := if_pos h
      rw [e2, if_neg (by simpa using h)]
      congr 1
      refine List.filter_congr fun x _ => ?_
      by_cases hx : x = b
      · simp [hx, h]
      · simp [hx]
    · have e2 : addNew l b = l ++ [b] := if_neg h
      rw [e2, if_pos (by simpa using h), List.append_assoc, List.singleton_append]
      congr 2
      refine List.filter_congr fun x _ => ?_
      by_cases hx : x = b <;> simp [hx]

theorem run_list (s : S) (calls : List Call) (h : ∀ c ∈ calls, c.brand ≠ 0) :
    (run s calls).list = brands s.brand s.list calls := by
  rw [run_eq calls s h]
  exact foldl_addNew _ _

/-- **C62.** Starting from any box, new or read, the major brand and the minor version are those last set, and a brand
is reported as compatible exactly if it was before, if it was given in a call, or if it was the major brand and got
replaced. None is entered twice. -/
theorem c62_answers (s : S) (calls : List Call) (h : ∀ c ∈ calls, c.brand ≠ 0) :
    getBrand (run s calls) = major (s.brand, s.minor) calls ∧
    (run s calls).list = brands s.brand s.list calls ∧
    (∀ b, b ≠ 0 → isCompatible (run s calls) b = if b ∈ s.list ∨ b ∈ named s.brand calls then .ok () else .err .notFound) ∧
    (s.list.Nodup → (run s calls).list.Nodup) := by
  have hl := run_list s calls h
  refine ⟨?_, hl, ?_, ?_⟩
  · rw [run_eq calls s h]
    rfl
  · intro b hb
    have hm : b ∈ (run s calls).list ↔ b ∈ s.list ∨ b ∈ named s.brand calls := by
      rw [hl]
      unfold brands
      have hf : ∀ (xs : List Nat), b ∈ firsts xs ↔ b ∈ xs := by
        intro xs
        induction xs with
        | nil => simp [firsts]
        | cons x xs ih =>
          simp only [firsts, List.mem_cons, List.mem_filter, ih]
          by_cases hx : b = x <;> simp [hx]
      simp only [List.mem_append, List.mem_filter, hf]
      by_cases hb : b ∈ s.list <;> simp [hb]
    unfold isCompatible getStandard
    by_cases hc : b ∈ (run s calls).list
    · rw [if_pos hc, if_pos (hm.1 hc), if_neg (by simp)]
    · rw [if_neg hc, if_neg (fun h => hc (hm.2 h)), if_pos (Ne.symm hb)]
  · intro hn
    rw [hl]
    unfold brands
    have hf : ∀ (xs : List Nat), (firsts xs).Nodup := by
      intro xs
      induction xs with
      | nil => simp [firsts]
      | cons x xs ih =>
        simp only [firsts, List.nodup_cons, List.mem_filter]
        exact ⟨by simp, ih.filter _⟩
    rw [List.nodup_append]
    refine ⟨hn, (hf _).filter _, ?_⟩
    rintro a ha b hb rfl
    simp only [List.mem_filter, decide_eq_true_eq] at hb
    exact hb.2 ha

/-- The number zero is no brand: it is compatible with every file, and entered each time. -/
theorem c62_zero (s : S) : isCompatible s 0 = .ok () ∧ (addStandard s 0).list = s.list ++ [0] := by
  unfold isCompatible addStandard getStandard
  constructor <;> split <;> simp_all

/-! ## In a file -/

theorem parsesAt_loop {sz : Nat} (l : List Nat) (hl : ∀ x ∈ l, x < 2 ^ 32) (hsz : sz < 2 ^ 32) : ∀ (acc : List Nat) (fuel k : Nat), l.length < fuel →
    k + 4 * l.length = sz → ParsesAt (loop sz fuel acc) k (l.flatMap (be 4)) (acc ++ l) := by
  induction l with
  | nil =>
    intro acc fuel k hf hk
    obtain ⟨f, rfl⟩ : ∃ f, fuel = f + 1 := ⟨fuel - 1, by simp at hf; omega⟩
    simp only [List.length_nil] at hk
    unfold loop
    refine parsesAt_bytesRead ?_
    simp only
    rw [if_neg (by omega)]
    simpa using (parses_pure acc).at k
  | cons x l ih =>
    intro acc fuel k hf hk
    obtain ⟨f, rfl⟩ : ∃ f, fuel = f + 1 := ⟨fuel - 1, by simp at hf; omega⟩
    simp only [List.flatMap_cons, List.length_cons] at hk ⊢
    unfold loop
    refine parsesAt_bytesRead ?_
    simp only
    rw [if_pos (by omega), if_neg (by omega)]
    refine ParsesAt.bind ((parses_get32' (hl x (by simp))).at _) ?_
    have := ih (fun y hy => hl y (by simp [hy])) (acc ++ [x]) f (k + (be 4 x).length) (by simp at hf; omega) (by rw [be_length]; omega)
    simpa using this

/-- The bytes of a box of the three kinds. -/
def bytesOf (k : Kind) (s : S) : Bytes :=
  if k.full then layoutFull k.type s.version s.flags s.brand s.minor s.list else layout k.type s.brand s.minor s.list

structure Fits (k : Kind) (s : S) : Prop where
  version : s.version < 256 ∧ s.flags < 2 ^ 24
  plain : k = .file → s.version = 0 ∧ s.flags = 0
  brand : s.brand < 2 ^ 32 ∧ s.minor < 2 ^ 32
  list : ∀ b ∈ s.list, b < 2 ^ 32
  count : 20 + 4 * s.list.length < 2 ^ 32

theorem write_eq (k : Kind) (s : S) (h : 20 + 4 * s.list.length < 2 ^ 32) : write k s = .ok (bytesOf k s) := by
  have hfl : (s.list.flatMap (be 4)).length = 4 * s.list.length := flatMap_length_const (c := 4) _ (fun _ _ => be_length _ _)
  unfold write bytesOf size
  cases hk : k.full with
  | true =>
    simp only [if_true]
    have e : w32(12 + 8 + s.list.length * 4) = 20 + 4 * s.list.length := by omega
    rw [e]
    have key := (emits_serFull (20 + 4 * s.list.length) k.type s.version s.flags).then ((emits_put32 s.brand).then ((emits_put32 s.minor).then
      ((Emits.each s.list fun x _ => emits_put32 x).thenAssert)))
    have e2 : layoutFull k.type s.version s.flags s.brand s.minor s.list = (be 4 (20 + 4 * s.list.length) ++ be 4 k.type ++ be 1 s.version ++ be 3 s.flags) ++
        (be 4 s.brand ++ (be 4 s.minor ++ s.list.flatMap (be 4))) := by
      unfold layoutFull fullBox box
      have : 8 + (be 1 s.version ++ be 3 s.flags ++ (be 4 s.brand ++ be 4 s.minor ++ s.list.flatMap (be 4))).length = 20 + 4 * s.list.length := by
        simp only [List.length_append, be_length, hfl]; omega
      rw [this]
      simp only [List.append_assoc]
    rw [e2]
    exact key.runW (by simp only [List.length_append, be_length, hfl]; omega) h
  | false =>
    simp only [Bool.false_eq_true, if_false]
    have e : w32(8 + 8 + s.list.length * 4) = 16 + 4 * s.list.length := by omega
    rw [e]
    have key := (emits_serBase (16 + 4 * s.list.length) k.type).then ((emits_put32 s.brand).then ((emits_put32 s.minor).then
      ((Emits.each s.list fun x _ => emits_put32 x).thenAssert)))
    have e2 : layout k.type s.brand s.minor s.list = (be 4 (16 + 4 * s.list.length) ++ be 4 k.type) ++
        (be 4 s.brand ++ (be 4 s.minor ++ s.list.flatMap (be 4))) := by
      unfold layout box
      have : 8 + (be 4 s.brand ++ be 4 s.minor ++ s.list.flatMap (be 4)).length = 16 + 4 * s.list.length := by
        simp only [List.length_append, be_length, hfl]; omega
      rw [this]
      simp only [List.append_assoc]
    rw [e2]
    exact key.runW (by simp only [List.length_append, be_length, hfl]; omega) (by omega)

theorem Kind.type_lt (k : Kind) : k.type < 4294967296 ∧ k.type ≠ typeUuid := by cases k <;> decide

/-- The part of the reader behind the version and the flags. -/
theorem parsesAt_tail {N v f b m p : Nat} {l : List Nat} (hb : b < 2 ^ 32) (hm : m < 2 ^ 32) (hl : ∀ x ∈ l, x < 2 ^ 32) (hne : l ≠ [])
    (hp : p + 8 + 4 * l.length = N) (hN : N < 2 ^ 32) :
    ParsesAt (do
      let brand ← get32
      let minor ← get32
      let br ← P.bytesRead
      if w32(N + (4294967296 - br)) < 4 then P.fail .badData
      else do
        let n ← P.available
        let l ← loop N (n + 1) []
        pure ⟨v, f, brand, minor, l⟩ : P S) p (be 4 b ++ (be 4 m ++ l.flatMap (be 4))) ⟨v, f, b, m, l⟩ := by
  have h1 : 0 < l.length := List.length_pos_iff.2 hne
  refine ParsesAt.bind ((parses_get32' hb).at _) ?_
  refine ParsesAt.bind ((parses_get32' hm).at _) ?_
  refine parsesAt_bytesRead ?_
  rw [if_neg (by simp only [be_length]; omega)]
  intro r
  have hfl : (l.flatMap (be 4)).length = 4 * l.length := flatMap_length_const (c := 4) _ (fun _ _ => be_length _ _)
  have := parsesAt_loop (sz := N) l hl hN [] ((l.flatMap (be 4) ++ r).length + 1) (p + (be 4 b).length + (be 4 m).length)
    (by simp only [List.length_append]; omega) (by simp only [be_length]; omega) r
  simp only [P.bind_apply, P.available]
  rw [this]
  rfl

theorem parse_eq (k : Kind) (s : S) (hf : Fits k s) (hne : s.list ≠ []) (rest : Bytes) :
    ∃ h, parseAtom (parse k) (bytesOf k s ++ rest) = .ok (s, h, rest) := by
  have hfl : (s.list.flatMap (be 4)).length = 4 * s.list.length := flatMap_length_const (c := 4) _ (fun _ _ => be_length _ _)
  have hc := hf.count
  unfold bytesOf
  cases hk : k.full with
  | true =>
    simp only [if_true]
    unfold layoutFull fullBox box
    generalize hpl : be 1 s.version ++ be 3 s.flags ++ (be 4 s.brand ++ be 4 s.minor ++ s.list.flatMap (be 4)) = payload
    have hlen : payload.length = 12 + 4 * s.list.length := by
      rw [← hpl]; simp only [List.length_append, be_length, hfl]; omega
    have key : ∀ N, N = 8 + payload.length → ParsesAt (parse k ⟨N, k.type, [], 0, 8⟩) 8 payload s := by
      intro N hN
      rw [← hpl]
      unfold parse
      rw [hk, if_pos rfl]
      refine ParsesAt.bind ((parses_versionFlags hf.version.1 hf.version.2).at _) ?_
      have := parsesAt_tail (N := N) (v := s.version) (f := s.flags) (p := 8 + (be 1 s.version ++ be 3 s.flags).length) hf.brand.1 hf.brand.2 hf.list hne
        (by simp only [List.length_append, be_length]; omega) (by omega)
      simpa using this
    exact ⟨_, parseAtom_small (key _ rfl) rfl (by omega) k.type_lt.1 k.type_lt.2 rest⟩
  | false =>
    have hfile : k = .file := by revert hk; cases k <;> decide
    obtain ⟨hv, hfg⟩ := hf.plain hfile
    simp only [Bool.false_eq_true, if_false]
    unfold layout box
    generalize hpl : be 4 s.brand ++ be 4 s.minor ++ s.list.flatMap (be 4) = payload
    have hlen : payload.length = 8 + 4 * s.list.length := by
      rw [← hpl]; simp only [List.length_append, be_length, hfl]
    have key : ∀ N, N = 8 + payload.length → ParsesAt (parse k ⟨N, k.type, [], 0, 8⟩) 8 payload s := by
      intro N hN
      rw [← hpl]
      unfold parse
      rw [hk, if_neg (by simp)]
      have := parsesAt_tail (N := N) (v := 0) (f := 0) (p := 8) hf.brand.1 hf.brand.2 hf.list hne
        (by omega) (by omega)
      have e : (⟨0, 0, s.brand, s.minor, s.list⟩ : S) = s := by
        cases s; simp_all
      rw [e] at this
      rw [List.append_assoc]
      exact this
    exact ⟨_, parseAtom_small (key _ rfl) rfl (by omega) k.type_lt.1 k.type_lt.2 rest⟩

/-- **C62, in a file.** A file type is written as specified, and reading one, by this library or another one, gives its
brands; calls go on from there as `c62_answers` says. -/
theorem c62_file (s : S) (hf : Fits .file s) (hne : s.list ≠ []) :
    write .file s = .ok (layout (fcc 'f' 't' 'y' 'p') s.brand s.minor s.list) ∧
    ∀ rest, ∃ h, parseAtom (parse .file) (layout (fcc 'f' 't' 'y' 'p') s.brand s.minor s.list ++ rest) = .ok (s, h, rest) :=
  ⟨write_eq .file s hf.count, parse_eq .file s hf hne⟩

theorem named_lt {B : Nat} (calls : List Call) : ∀ m, m < B → (∀ c ∈ calls, c.brand < B) → ∀ b ∈ named m calls, b < B := by
  induction calls with
  | nil => intro m _ _ b hb; simp [named] at hb
  | cons c cs ih =>
    intro m hm h b hb
    have hc := h c (by simp)
    have ht : ∀ c ∈ cs, c.brand < B := fun c hc => h c (by simp [hc])
    cases c with
    | add x =>
      simp only [named, List.mem_cons] at hb
      rcases hb with rfl | hb
      · exact hc
      · exact ih m hm ht b hb
    | set x n =>
      simp only [named, List.mem_append, List.mem_cons] at hb
      rcases hb with hb | rfl | hb
      · split at hb
        · simp at hb
        · simp at hb; omega
      · exact hc
      · exact ih x hc ht b hb

theorem major_lt {B : Nat} (calls : List Call) : ∀ m : Nat × Nat, m.1 < B → m.2 < B → (∀ c ∈ calls, c.brand < B) →
    (∀ b n, Call.set b n ∈ calls → n < B) → (major m calls).1 < B ∧ (major m calls).2 < B := by
  induction calls with
  | nil => intro m h1 h2 _ _; exact ⟨h1, h2⟩
  | cons c cs ih =>
    intro m h1 h2 h hn
    have hc := h c (by simp)
    have ht : ∀ c ∈ cs, c.brand < B := fun c hc => h c (by simp [hc])
    have hn' : ∀ b n, Call.set b n ∈ cs → n < B := fun b n hb => hn b n (by simp [hb])
    cases c with
    | add x => exact ih m h1 h2 ht hn'
    | set x n => exact ih (x, n) hc (hn x n (by simp)) ht hn'

theorem mem_firsts {b : Nat} (xs : List Nat) : b ∈ firsts xs ↔ b ∈ xs := by
  induction xs with
  | nil => simp [firsts]
  | cons x xs ih =>
    simp only [firsts, List.mem_cons, List.mem_filter, ih]
    by_cases hx : b = x <;> simp [hx]

/-- **C62, for files of this library.** A file type made by any calls is written with the brands of the calls, and reading it
gives them back. -/
theorem c62_made (calls : List Call) (hne : calls ≠ []) (h0 : ∀ c ∈ calls, c.brand ≠ 0) (hb : ∀ c ∈ calls, c.brand < 2 ^ 32)
    (hm : ∀ b n, Call.set b n ∈ calls → n < 2 ^ 32) (hc : 20 + 4 * (brands 0 [] calls).length < 2 ^ 32) :
    write .file (run new calls) =
      .ok (layout (fcc 'f' 't' 'y' 'p') (major (0, 0) calls).1 (major (0, 0) calls).2 (brands 0 [] calls)) ∧
    ∀ rest, ∃ h, parseAtom (parse .file)
      (layout (fcc 'f' 't' 'y' 'p') (major (0, 0) calls).1 (major (0, 0) calls).2 (brands 0 [] calls) ++ rest) =
        .ok (run new calls, h, rest) := by
  have e : run new calls = ⟨0, 0, (major (0, 0) calls).1, (major (0, 0) calls).2, brands 0 [] calls⟩ := by
    have h1 := run_eq calls new h0
    rw [foldl_addNew] at h1
    exact h1
  have hmaj := major_lt (B := 2 ^ 32) calls (0, 0) (by decide) (by decide) hb hm
  rw [e]
  refine c62_file _ ⟨by simp, fun _ => ⟨rfl, rfl⟩, hmaj, ?_, hc⟩ ?_
  · intro b h
    simp only [brands, List.nil_append, List.mem_filter] at h
    exact named_lt calls 0 (by decide) hb b ((mem_firsts _).1 h.1)
  · cases calls with
    | nil => exact absurd rfl hne
    | cons c cs => cases c <;> simp [brands, named, firsts]

/-- **C62, the two other boxes.** What is written for a segment or a track is read back. -/
theorem c62_full (k : Kind) (hk : k ≠ .file) (s : S) (hf : Fits k s) (hne : s.list ≠ []) :
    write k s = .ok (layoutFull k.type s.version s.flags s.brand s.minor s.list) ∧
    ∀ rest, ∃ h, parseAtom (parse k) (layoutFull k.type s.version s.flags s.brand s.minor s.list ++ rest) = .ok (s, h, rest) := by
  have e : bytesOf k s = layoutFull k.type s.version s.flags s.brand s.minor s.list := by
    cases k <;> first | rfl | exact absurd rfl hk
  rw [← e]
  exact ⟨write_eq k s hf.count, parse_eq k s hf hne⟩

/-! ## What goes wrong -/

/-- A box without compatible brands is written, but cannot be read. -/
theorem c62_empty (b m : Nat) (hb : b < 2 ^ 32) (hm : m < 2 ^ 32) :
    write .file ⟨0, 0, b, m, []⟩ = .ok (layout (fcc 'f' 't' 'y' 'p') b m []) ∧
    ∀ rest, parseAtom (parse .file) (layout (fcc 'f' 't' 'y' 'p') b m [] ++ rest) = .err .badData := by
  refine ⟨write_eq .file ⟨0, 0, b, m, []⟩ (by simp), fun rest => ?_⟩
  have key : ∀ N, N = 16 → FailsAt (parse .file ⟨N, fcc 'f' 't' 'y' 'p', [], 0, 8⟩) 8 (be 4 b ++ (be 4 m ++ [])) .badData := by
    intro N hN
    unfold parse
    rw [if_neg (by decide)]
    refine FailsAt.pure ?_
    refine FailsAt.bind ((parses_get32' hb).at _) ?_
    refine FailsAt.bind ((parses_get32' hm).at _) ?_
    refine FailsAt.read ?_
    rw [if_pos (by simp only [be_length]; omega)]
    exact failsAt_fail _
  unfold layout box
  simp only [List.flatMap_nil]
  generalize hp : be 4 b ++ be 4 m ++ [] = p
  have hl : p.length = 8 := by rw [← hp]; simp
  rw [List.append_assoc] at hp
  rw [hp] at key
  exact parseAtom_fails (key _ (by omega)) rfl (by omega) (by decide) (by decide) rest

theorem segment_eq (b m x : Nat) (l : List Nat) :
    layout (fcc 's' 't' 'y' 'p') b m (x :: l) = bytesOf .segment ⟨b / 2 ^ 24, b % 2 ^ 24, m, x, l⟩ := by
  have e := versionFlags_be (b / 2 ^ 24) (b % 2 ^ 24) (by omega)
  have hb : b / 2 ^ 24 * 16777216 + b % 2 ^ 24 = b := by omega
  rw [hb] at e
  show box _ _ = box _ (be 1 (b / 2 ^ 24) ++ be 3 (b % 2 ^ 24) ++ _)
  rw [e, List.flatMap_cons]
  simp only [List.append_assoc]
  rfl

/-- The segment type of the standard is a plain box. Its major brand is taken for a version and flags, the minor version
for the major brand, and the first compatible brand for the minor version. -/
theorem c62_segment_by_others (b m x : Nat) (l : List Nat) (hb : b < 2 ^ 32) (hm : m < 2 ^ 32) (hx : x < 2 ^ 32) (hl : ∀ y ∈ l, y < 2 ^ 32)
    (hne : l ≠ []) (hc : 20 + 4 * l.length < 2 ^ 32) (rest : Bytes) :
    ∃ h, parseAtom (parse .segment) (layout (fcc 's' 't' 'y' 'p') b m (x :: l) ++ rest) =
      .ok (⟨b / 2 ^ 24, b % 2 ^ 24, m, x, l⟩, h, rest) := by
  have := parse_eq .segment ⟨b / 2 ^ 24, b % 2 ^ 24, m, x, l⟩ ⟨by simp only; omega, by simp, by simp only; omega, hl, hc⟩ hne rest
  rw [segment_eq]
  exact this

/-- With one compatible brand it is refused. -/
theorem c62_segment_refused (b m x : Nat) (hb : b < 2 ^ 32) (hm : m < 2 ^ 32) (hx : x < 2 ^ 32) (rest : Bytes) :
    parseAtom (parse .segment) (layout (fcc 's' 't' 'y' 'p') b m [x] ++ rest) = .err .badData := by
  have e := versionFlags_be (b / 2 ^ 24) (b % 2 ^ 24) (by omega)
  rw [show b / 2 ^ 24 * 16777216 + b % 2 ^ 24 = b from by omega] at e
  have key : ∀ N, N = 20 → FailsAt (parse .segment ⟨N, fcc 's' 't' 'y' 'p', [], 0, 8⟩) 8 (be 4 b ++ (be 4 m ++ (be 4 x ++ []))) .badData := by
    intro N hN
    unfold parse
    rw [if_pos (by decide)]
    refine FailsAt.bind (v := (b / 2 ^ 24, b % 2 ^ 24)) (e ▸ (parses_versionFlags (by omega) (by omega)).at _) ?_
    refine FailsAt.bind ((parses_get32' hm).at _) ?_
    refine FailsAt.bind ((parses_get32' hx).at _) ?_
    refine FailsAt.read ?_
    rw [if_pos (by simp only [be_length]; omega)]
    exact failsAt_fail _
  unfold layout box
  simp only [List.flatMap_cons, List.flatMap_nil]
  generalize hp : be 4 b ++ be 4 m ++ (be 4 x ++ []) = p
  have hl : p.length = 12 := by rw [← hp]; simp
  rw [List.append_assoc] at hp
  rw [hp] at key
  exact parseAtom_fails (key _ (by omega)) rfl (by omega) (by decide) (by decide) rest

/-! ## A case -/

/-- The brands of a new file with the major brand replaced. -/
example : run new [.set (fcc 'm' 'p' '4' '2') 0, .add (fcc 'i' 's' 'o' 'm'), .set (fcc 'i' 's' 'o' '6') 1, .add (fcc 'i' 's' 'o' 'm')] =
    ⟨0, 0, fcc 'i' 's' 'o' '6', 1, [fcc 'm' 'p' '4' '2', fcc 'i' 's' 'o' 'm', fcc 'i' 's' 'o' '6']⟩ := by decide

/-- A file read with a major brand that is not among the compatible ones. -/
example : run ⟨0, 0, fcc 'a' 'v' 'c' '1', 0, [fcc 'i' 's' 'o' 'm']⟩ [.set (fcc 'i' 's' 'o' '6') 1] =
    ⟨0, 0, fcc 'i' 's' 'o' '6', 1, [fcc 'i' 's' 'o' 'm', fcc 'a' 'v' 'c' '1', fcc 'i' 's' 'o' '6']⟩ := by decide

example : Fits .file ⟨0, 0, fcc 'i' 's' 'o' '6', 1, [fcc 'm' 'p' '4' '2', fcc 'i' 's' 'o' 'm', fcc 'i' 's' 'o' '6']⟩ ∧
    Fits .segment ⟨0, 0, fcc 'm' 's' 'd' 'h', 0, [fcc 'm' 's' 'd' 'h', fcc 'm' 's' 'i' 'x']⟩ :=
  ⟨⟨by decide, by decide, by decide, by decide, by decide⟩, ⟨by decide, by decide, by decide, by decide, by decide⟩⟩

end Verif.Brand
