import Verif.Model.Saiz
import Verif.Lemmas.Auto
import Verif.Lemmas.Stores

/-!
# C40: sizes of sample auxiliary information
-/

namespace Verif.Saiz

/-- What the box says: the size for each sample, in order. A default size other than 0 stands for
all samples, otherwise each sample has its own. -/
def perSample (b : Box) : List Nat :=
  if b.default ≠ 0 then List.replicate b.count b.default else b.sizes

/-- The state of a box: values fit their fields, and there is one size for each sample unless there
is a default. -/
structure WF (b : Box) : Prop where
  default : b.default < 2 ^ 8
  count : b.count < 2 ^ 32
  own : b.default = 0 → b.sizes.length = b.count
  bytes : ∀ s ∈ b.sizes, s < 2 ^ 8

def layout (b : Box) : Bytes :=
  fullBox (fcc 's' 'a' 'i' 'z') b.version b.flags
    ((if b.flags &&& 1 ≠ 0 then be 4 b.auxType ++ be 4 b.auxParam else []) ++
      (be 1 b.default ++ (be 4 b.count ++ if b.default = 0 then b.sizes.flatMap (be 1) else [])))

/-- The number of samples is the length of the list. -/
theorem c40_count (b : Box) (h : WF b) : (perSample b).length = b.count := by
  unfold perSample
  split
  · simp
  · exact h.own (by omega)

theorem grown_append {block vs : List Nat} {n i : Nat} (h1 : block.length = i) (h2 : i + vs.length = n) :
    grown block n i vs = .ok (block ++ vs) := by
  unfold grown
  rw [if_pos ⟨by omega, h2⟩, List.take_of_length_le (by omega)]

/-- Merging the box of a fragment appends its sizes, whatever form the two boxes use. -/
theorem c40_merge (b o : Box) (hb : WF b) (ho : WF o) (hsum : b.count + o.count < 2 ^ 32) :
    ∃ b', mergeSizes b o = .ok b' ∧ perSample b' = perSample b ++ perSample o ∧ WF b' ∧
      b'.auxType = b.auxType ∧ b'.auxParam = b.auxParam ∧ b'.flags = b.flags ∧ b'.version = b.version := by
  have hw : w32(b.count + o.count) = b.count + o.count := Nat.mod_eq_of_lt hsum
  unfold mergeSizes
  by_cases hc : b.default ≠ 0 ∧ o.default ≠ 0 ∧ b.default = o.default
  · rw [if_pos hc, hw]
    refine ⟨_, rfl, ?_, ⟨hb.default, hsum, fun h => absurd h hc.1, hb.bytes⟩, rfl, rfl, rfl, rfl⟩
    simp only [perSample]
    rw [if_pos hc.1, if_pos hc.1, if_pos hc.2.1, ← hc.2.2, List.replicate_append_replicate]
  · rw [if_neg hc, hw]
    have hco : copied o = .ok (perSample o) := by
      unfold copied perSample
      split
      · rfl
      · have := ho.own (by omega)
        rw [if_pos (by omega), List.take_of_length_le (by omega)]
    have hsp : (spread b).sizes = perSample b ∧ (spread b).default = 0 := by
      unfold spread perSample
      split
      · exact ⟨rfl, rfl⟩
      · exact ⟨rfl, by omega⟩
    have hrest : (spread b).auxType = b.auxType ∧ (spread b).auxParam = b.auxParam ∧
        (spread b).flags = b.flags ∧ (spread b).version = b.version := by
      unfold spread
      split <;> exact ⟨rfl, rfl, rfl, rfl⟩
    rw [hco]
    simp only [Res.bind]
    rw [hsp.1, grown_append (c40_count b hb) (by rw [c40_count o ho])]
    refine ⟨_, rfl, ?_, ?_, hrest⟩
    · conv => lhs; unfold perSample
      rw [if_neg (by simp [hsp.2])]
      rfl
    · have hmem : ∀ x : Box, WF x → ∀ s ∈ perSample x, s < 2 ^ 8 := by
        intro x hx s hs
        unfold perSample at hs
        split at hs
        · rw [(List.mem_replicate.1 hs).2]; exact hx.default
        · exact hx.bytes s hs
      refine ⟨by simp [hsp.2], hsum, fun _ => ?_, ?_⟩
      · simp [c40_count b hb, c40_count o ho]
      · intro s hs
        rcases List.mem_append.1 hs with h | h
        · exact hmem b hb s h
        · exact hmem o ho s h

/-- One given value stands for all the `n` samples. -/
def ifOne (n : Nat) : List Nat → List Nat
  | [s] => List.replicate n s
  | given => given

/-- Adding `n` samples appends their sizes: the default if there is one, the given value for all if
one value is given, the given values otherwise. -/
theorem c40_add (b : Box) (n : Nat) (given : List Nat) (hb : WF b) (hsum : b.count + n < 2 ^ 32)
    (hg : given.length = 1 ∨ given.length = n) (hfit : ∀ s ∈ given, s < 2 ^ 8) :
    ∃ b', addSizes b n given = .ok b' ∧ WF b' ∧
      perSample b' = perSample b ++
        (if b.default ≠ 0 then List.replicate n b.default
         else ifOne n given) := by
  have hw : w32(b.count + n) = b.count + n := Nat.mod_eq_of_lt hsum
  unfold addSizes
  rw [hw]
  by_cases hd : b.default = 0
  · rw [if_pos hd, if_neg (by omega)]
    have hmap : (given.map fun s => w8(s)) = given := by
      conv => rhs; rw [← List.map_id given]
      exact List.map_congr_left fun s hs => Nat.mod_eq_of_lt (by have := hfit s hs; omega)
    generalize hv : (if given.length = 1 then List.replicate n w8(given.headD 0) else given.map fun s => w8(s)) = vs
    have hvs : vs = ifOne n given := by
      rw [← hv, hmap]
      clear hv hmap hg
      match given, hfit with
      | [], _ => rfl
      | [s], hf =>
        have := hf s (by simp)
        simp only [List.length_singleton, if_true, List.headD_cons, ifOne]
        rw [Nat.mod_eq_of_lt (by omega)]
      | _ :: _ :: _, _ => simp [ifOne]
    have hlen : vs.length = n := by
      rw [← hv]
      split
      · simp
      · simp; omega
    have hlt : ∀ s ∈ vs, s < 2 ^ 8 := by
      intro s hs
      rw [← hv, hmap] at hs
      split at hs
      · rw [(List.mem_replicate.1 hs).2]; exact Nat.mod_lt _ (by decide)
      · exact hfit s hs
    rw [grown_append (hb.own hd) (by rw [hlen])]
    refine ⟨_, rfl, ⟨hb.default, hsum, fun _ => ?_, ?_⟩, ?_⟩
    · simp [hb.own hd, hlen]
    · intro s hs
      rcases List.mem_append.1 hs with h | h
      · exact hb.bytes s h
      · exact hlt s h
    · simp only [perSample, hd, ne_eq, not_true, if_false, ← hvs]
  · rw [if_neg hd]
    refine ⟨_, rfl, ⟨hb.default, hsum, fun h => absurd h hd, hb.bytes⟩, ?_⟩
    simp only [perSample, ne_eq, hd, not_false_eq_true, if_true, List.replicate_append_replicate]

/-- Another number of sizes is refused and nothing is changed. -/
theorem c40_add_refused (b : Box) (n : Nat) (given : List Nat) (hd : b.default = 0)
    (h1 : given.length ≠ 1) (hn : given.length ≠ n) : addSizes b n given = .err .badParam := by
  unfold addSizes
  rw [if_pos hd, if_pos ⟨h1, hn⟩]

/-- A box that was written is read back: all fields, and the size for each sample. If samples have sizes of their own, this
needs a block with room behind it. -/
theorem c40_round_trip_partial (room : Bool) (b : Box) (hb : WF b) (hver : b.version < 256) (hfl : b.flags < 2 ^ 24)
    (hn : b.default ≠ 0 → b.sizes = []) (haux : b.flags &&& 1 = 0 → b.auxType = 0 ∧ b.auxParam = 0)
    (hau : b.auxType < 2 ^ 32 ∧ b.auxParam < 2 ^ 32) (hsize : b.count + 25 < 2 ^ 32)
    (hr : room = true ∨ b.default ≠ 0 ∨ b.count = 0) :
    BoxRoundTrip (size b) (serialize b) (parse room) b (layout b) := by
  have hlen : (b.sizes.flatMap (be 1)).length = b.sizes.length := by
    rw [flatMap_length_const b.sizes (c := 1) fun s _ => be_length 1 s]; omega
  have hsz : size b = 12 + ((if b.flags &&& 1 ≠ 0 then be 4 b.auxType ++ be 4 b.auxParam else []) ++
      (be 1 b.default ++ (be 4 b.count ++ if b.default = 0 then b.sizes.flatMap (be 1) else []))).length := by
    have := hb.own
    unfold size
    by_cases h1 : b.flags &&& 1 = 0 <;> by_cases h2 : b.default = 0 <;>
      simp only [h1, h2, ne_eq, not_true, not_false_eq_true, if_true, if_false, List.length_append, be_length, hlen,
        List.length_nil] <;> omega
  have hlt : size b < 4294967296 := by unfold size; exact Nat.mod_lt _ (by decide)
  refine BoxRoundTrip.ofFull (type := typeSaiz) ?_ ?_ hsz (by omega) (by decide) (by decide)
  · refine Emits.then ?_ ((emits_put8 _).then ((emits_put32 _).then (Emits.thenAssert ?_)))
    · by_cases h1 : b.flags &&& 1 = 0
      · simp only [h1, ne_eq, not_true, if_false]; exact emits_skip
      · simp only [h1, ne_eq, not_false_eq_true, if_true]; exact (emits_put32 _).seq (emits_put32 _)
    · by_cases h2 : b.default = 0
      · simp only [h2, if_true]
        rw [← hb.own h2]
        exact emits_sizes _
      · simp only [h2, if_false]; exact emits_skip
  · unfold parse
    refine ParsesAt.bind ((parses_versionFlags hver hfl).at _) ?_
    refine ParsesAt.bind (a := (b.auxType, b.auxParam)) ?_ ?_
    · apply Parses.at
      unfold getAux
      by_cases h1 : b.flags &&& 1 = 0
      · simp only [h1, ne_eq, not_true, if_false]
        obtain ⟨h3, h4⟩ := haux h1
        rw [h3, h4]; exact parses_pure _
      · simp only [h1, ne_eq, not_false_eq_true, if_true]
        exact (parses_get32' hau.1).bind ((parses_get32' hau.2).bind_nil (parses_pure _))
    refine ParsesAt.bind ((parses_get8' hb.default).at _) ?_
    refine ParsesAt.bind ((parses_get32' hb.count).at _) ?_
    refine ParsesAt.bind_nil (a := b.sizes) ?_ ?_
    · apply Parses.at
      unfold getSizes
      by_cases h2 : b.default = 0
      · simp only [h2, if_true]
        exact parses_stores hb.bytes (hb.own h2) (hr.imp_right fun h => h.resolve_left (fun h => h h2))
      · simp only [h2, if_false]
        rw [hn h2]; exact parses_pure _
    refine parsesAt_bytesRead ?_
    rw [if_pos]
    · exact (parses_pure _).at _
    · have := hsz
      simp only [List.length_append, be_length] at this ⊢
      omega

/-- Without room behind the block, reading any box with sizes of their own for its samples writes past the end of it. -/
theorem c40_overrun (b : Box) (hb : WF b) (hver : b.version < 256) (hfl : b.flags < 2 ^ 24)
    (hau : b.auxType < 2 ^ 32 ∧ b.auxParam < 2 ^ 32) (hsize : b.count + 25 < 2 ^ 32) (hd : b.default = 0) (hc : b.count ≠ 0)
    (rest : Bytes) : parseAtom (parse false) (layout b ++ rest) = .ub := by
  have hty : typeSaiz = fcc 's' 'a' 'i' 'z' := by decide
  have hlen : (b.sizes.flatMap (be 1)).length = b.sizes.length := by
    rw [flatMap_length_const b.sizes (c := 1) fun s _ => be_length 1 s]; omega
  have hown := hb.own hd
  unfold layout
  rw [← hty]
  refine Str.fullBox_breaks ?_ ?_ (by decide) (by decide) rest
  · unfold parse
    refine Str.BreaksAt.bind ((parses_versionFlags hver hfl).at _) ?_
    have hm : ∃ x, Parses (getAux b.flags)
        (if b.flags &&& 1 ≠ 0 then be 4 b.auxType ++ be 4 b.auxParam else []) x := by
      unfold getAux
      by_cases h1 : b.flags &&& 1 = 0
      · simp only [h1, ne_eq, not_true, if_false]; exact ⟨_, parses_pure _⟩
      · simp only [h1, ne_eq, not_false_eq_true, if_true]
        exact ⟨_, (parses_get32' hau.1).bind ((parses_get32' hau.2).bind_nil (parses_pure _))⟩
    obtain ⟨x, hx⟩ := hm
    refine Str.BreaksAt.bind (hx.at _) ?_
    refine Str.BreaksAt.bind ((parses_get8' hb.default).at _) ?_
    refine Str.BreaksAt.bind ((parses_get32' hb.count).at _) ?_
    refine Str.BreaksAt.first ?_
    unfold getSizes
    rw [if_pos hd, if_pos hd]
    exact breaks_stores hb.bytes hown hc
  · rw [if_pos hd]
    simp only [List.length_append, be_length, hlen]
    split <;> simp only [List.length_append, be_length, List.length_nil] <;> omega

/-! ## Cases that meet the hypotheses -/

def uniform : Box := ⟨0, 1, 0x63656e63, 0, 16, 3, []⟩
def mixed : Box := ⟨0, 1, 0x63656e63, 0, 0, 2, [8, 0]⟩

theorem uniform_wf : WF uniform := ⟨by decide, by decide, by decide, by decide⟩
theorem mixed_wf : WF mixed := ⟨by decide, by decide, by decide, by decide⟩

/-- A default and sizes of their own are merged. -/
example : WF uniform ∧ WF mixed ∧ uniform.count + mixed.count < 2 ^ 32 ∧
    (mergeSizes uniform mixed).bind (fun b => .ok (perSample b)) = .ok [16, 16, 16, 8, 0] ∧
    (mergeSizes mixed uniform).bind (fun b => .ok (perSample b)) = .ok [8, 0, 16, 16, 16] ∧
    (mergeSizes uniform uniform).bind (fun b => .ok (b.default, perSample b)) = .ok (16, [16, 16, 16, 16, 16, 16]) :=
  ⟨uniform_wf, mixed_wf, by decide, by decide, by decide, by decide⟩

example : (addSizes mixed 3 [7]).bind (fun b => .ok (perSample b)) = .ok [8, 0, 7, 7, 7] ∧
    (addSizes mixed 2 [7, 9]).bind (fun b => .ok (perSample b)) = .ok [8, 0, 7, 9] ∧
    addSizes mixed 3 [7, 9] = .err .badParam := by decide

example : ∀ b ∈ [uniform, mixed], (runW (size b) (serialize b)).bind (fun bs =>
    (parseAtom (parse true) (bs ++ [1])).bind fun r => .ok r.1) = .ok b := by decide

example : parseAtom (parse false) (layout mixed) = .ub ∧
    (parseAtom (parse false) (layout uniform)).bind (fun r => .ok r.1) = .ok uniform := by decide

end Verif.Saiz
