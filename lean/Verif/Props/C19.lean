import Verif.Model.Padb
import Verif.Spec.Batch
import Verif.Lemmas.Box

/-!
# C19 — padding bits survive being added, written and parsed
-/

namespace Verif.Padb

/-- One addition of samples: nothing said about padding, or padding for all. -/
inductive Add
  | silent (n : Nat)
  | pads (b : Batch)

def Add.count : Add → Nat
  | .silent n => n
  | .pads b => b.count

/-- What the library is given. -/
def Add.handle : Add → Option (List Nat)
  | .silent _ => none
  | .pads b => some b.array

/-- The padding of each sample; samples about which nothing is said have none. -/
def Add.values : Add → List Nat
  | .silent n => List.replicate n 0
  | .pads b => b.values

def addOne (s : St) (a : Add) : Res St := tableAdd s a.count a.handle

/-- The layout written: two samples in one byte, the earlier one in the low half. -/
def packed : List Nat → Bytes
  | [] => []
  | [a] => [UInt8.ofNat a]
  | a :: b :: r => UInt8.ofNat (a + 16 * b) :: packed r

def layout (version flags : Nat) (L : List Nat) : Bytes :=
  fullBox (fcc 'p' 'a' 'd' 'b') version flags (be 4 L.length ++ packed L)

structure Rep (t : Padb) (L : List Nat) : Prop where
  count : t.count = L.length
  pads : t.pads = some (L ++ [0]) ∨ (L = [] ∧ t.pads = none)

theorem Rep.extend {t : Padb} {L : List Nat} (h : Rep t L) (vals : List Nat)
    (hlen : (L ++ vals).length < 4294967295) :
    ∃ t', extend t vals = .ok t' ∧ Rep t' (L ++ vals) := by
  rw [List.length_append] at hlen
  have hold : (t.pads.getD []).take t.count = L ∧ ¬ t.count > (t.pads.getD []).length := by
    rcases h.pads with h' | ⟨rfl, h'⟩
    · rw [h', h.count]; simp
    · rw [h', h.count]; simp
  have e1 : (vals.length + L.length + 1) % 4294967296 = L.length + vals.length + 1 := by omega
  have e2 : (L.length + vals.length) % 4294967296 = L.length + vals.length := by omega
  refine ⟨⟨(L ++ vals).length, some (L ++ vals ++ [0])⟩, ?_, ⟨rfl, Or.inl rfl⟩⟩
  unfold Padb.extend
  rw [if_neg hold.2, hold.1, h.count, e1, e2]
  have s1 : Mem.store (List.replicate (L.length + vals.length + 1) 0) 0 L =
      .ok (L ++ List.replicate (vals.length + 1) 0) := by
    unfold Mem.store
    rw [if_pos (by simp; omega)]
    simp
    omega
  rw [s1]
  have s2 : Mem.store (L ++ List.replicate (vals.length + 1) 0) L.length vals = .ok (L ++ vals ++ [0]) := by
    unfold Mem.store
    rw [if_pos (by simp)]
    simp [List.drop_append]
  simp only [Res.bind, s2, List.length_append]

theorem rep_create : Rep create [] := ⟨rfl, Or.inr ⟨rfl, rfl⟩⟩

theorem addPads_batch {t : Padb} {L : List Nat} (h : Rep t L) (b : Batch)
    (hlen : (L ++ b.values).length < 4294967295) :
    ∃ t', addPads t b.count (some b.array) = .ok t' ∧ Rep t' (L ++ b.values) := by
  obtain ⟨t', h1, h2⟩ := h.extend b.values hlen
  refine ⟨t', ?_, h2⟩
  rw [← h1]
  cases b with
  | uniform n v => rfl
  | each vs =>
    match vs with
    | [] => rfl
    | [v] => rfl
    | v :: w :: r => simp [Batch.count, Batch.array, Batch.values, addPads]

theorem addPads_silent {t : Padb} {L : List Nat} (h : Rep t L) (n : Nat)
    (hlen : (L ++ List.replicate n 0).length < 4294967295) :
    ∃ t', addPads t n none = .ok t' ∧ Rep t' (L ++ List.replicate n 0) := h.extend _ hlen

/-- State after a history: as many samples as added; once padding was mentioned, a table with the
padding of every sample; before, no table and no padding. -/
def StRep (s : St) (h : List Add) : Prop :=
  s.samples = (h.flatMap Add.values).length ∧
  match s.padb with
  | some t => Rep t (h.flatMap Add.values) ∧ ∃ b, Add.pads b ∈ h
  | none => ∀ a ∈ h, ∃ n, a = .silent n

theorem silent_values {h : List Add} (hs : ∀ a ∈ h, ∃ n, a = Add.silent n) :
    h.flatMap Add.values = List.replicate (h.flatMap Add.values).length 0 := by
  rw [List.eq_replicate_iff]
  refine ⟨rfl, ?_⟩
  intro v hv
  obtain ⟨a, ha, hva⟩ := List.mem_flatMap.mp hv
  obtain ⟨n, rfl⟩ := hs a ha
  exact (List.mem_replicate.mp hva).2

theorem count_values (a : Add) : a.values.length = a.count := by
  cases a with
  | silent n => simp [Add.values, Add.count]
  | pads b => cases b <;> simp [Add.values, Add.count, Batch.values, Batch.count]

theorem step (s : St) (h : List Add) (a : Add) (hR : StRep s h)
    (hlen : ((h ++ [a]).flatMap Add.values).length < 4294967295) :
    ∃ s', addOne s a = .ok s' ∧ StRep s' (h ++ [a]) := by
  have hfm : (h ++ [a]).flatMap Add.values = h.flatMap Add.values ++ a.values := by simp
  rw [hfm] at hlen
  obtain ⟨hs, hp⟩ := hR
  have hsum : (s.samples + a.count) % 4294967296 = ((h ++ [a]).flatMap Add.values).length := by
    rw [hfm, List.length_append, ← hs, count_values]
    rw [List.length_append, ← hs, count_values] at hlen
    omega
  unfold addOne tableAdd
  cases hpad : s.padb with
  | none =>
    rw [hpad] at hp
    cases a with
    | silent n =>
      refine ⟨_, rfl, hsum, ?_⟩
      intro x hx
      rw [List.mem_append] at hx
      rcases hx with hx | hx
      · exact hp x hx
      · exact ⟨n, by simpa using hx⟩
    | pads b =>
      have hrep0 : ∃ t, (if s.samples > 0 then addPads create s.samples none else .ok create) = .ok t ∧
          Rep t (h.flatMap Add.values) := by
        by_cases h0 : s.samples > 0
        · rw [if_pos h0]
          rw [List.length_append] at hlen
          obtain ⟨t, g1, g2⟩ := addPads_silent rep_create s.samples (by simp; omega)
          refine ⟨t, g1, ?_⟩
          rw [silent_values hp, ← hs]
          exact g2
        · rw [if_neg h0]
          have : h.flatMap Add.values = [] := List.length_eq_zero_iff.mp (by omega)
          rw [this]
          exact ⟨_, rfl, rep_create⟩
      obtain ⟨t, g1, g2⟩ := hrep0
      obtain ⟨t', g3, g4⟩ := addPads_batch g2 b hlen
      refine ⟨⟨_, some t'⟩, ?_, hsum, ?_, b, by simp⟩
      · simp only [Add.handle, Add.count, g1, Res.bind, g3]
      · rw [hfm]; exact g4
  | some t =>
    rw [hpad] at hp
    obtain ⟨hrep, b0, hb0⟩ := hp
    cases a with
    | silent n =>
      obtain ⟨t', g3, g4⟩ := addPads_silent hrep n hlen
      refine ⟨⟨_, some t'⟩, ?_, hsum, ?_, b0, by simp [hb0]⟩
      · simp only [Add.handle, Add.count, Res.bind, g3]
      · rw [hfm]; exact g4
    | pads b =>
      obtain ⟨t', g3, g4⟩ := addPads_batch hrep b hlen
      refine ⟨⟨_, some t'⟩, ?_, hsum, ?_, b0, by simp [hb0]⟩
      · simp only [Add.handle, Add.count, Res.bind, g3]
      · rw [hfm]; exact g4

theorem run (as : List Add) : ∀ (s : St) (h : List Add), StRep s h →
    ((h ++ as).flatMap Add.values).length < 4294967295 →
    ∃ s', runAll addOne s as = .ok s' ∧ StRep s' (h ++ as) := by
  induction as with
  | nil => intro s h hR _; exact ⟨s, rfl, by simpa using hR⟩
  | cons a as ih =>
    intro s h hR hlen
    obtain ⟨s', h1, h2⟩ := step s h a hR (by
      simp only [List.flatMap_append, List.flatMap_cons, List.flatMap_nil, List.append_nil,
        List.length_append] at hlen ⊢
      omega)
    obtain ⟨s'', g1, g2⟩ := ih s' (h ++ [a]) h2 (by simpa using hlen)
    refine ⟨s'', ?_, by simpa using g2⟩
    simp only [runAll, h1, Res.bind]
    exact g1

theorem Rep.get {t : Padb} {L : List Nat} (h : Rep t L) :
    (∀ (n p : Nat), L[n]? = some p → getPadding t (n + 1) = .ok p) ∧
    (∀ n, n = 0 ∨ L.length < n → getPadding t n = .err .badParam) := by
  refine ⟨?_, ?_⟩
  · intro n p hp
    have hlt := (List.getElem?_eq_some_iff.mp hp).1
    unfold getPadding
    rw [if_neg (by rw [h.count]; omega)]
    rcases h.pads with h' | ⟨rfl, _⟩
    · rw [h']
      simp only [Nat.add_sub_cancel]
      unfold Mem.get
      rw [List.getElem?_append_left hlt, hp]
    · simp at hlt
  · intro n hn
    unfold getPadding
    rw [if_pos (by rw [h.count]; omega)]

/-! ### Writing and parsing -/

theorem byte_eq {a b : Nat} (ha : a < 8) (hb : b < 8) :
    ((a &&& 7) ||| ((b &&& 7) <<< 4)) % 256 = a + 16 * b := by
  have e1 : a &&& 7 = a := by rw [show 7 = 2 ^ 3 - 1 from rfl, Nat.and_two_pow_sub_one_eq_mod]; omega
  have e2 : b &&& 7 = b := by rw [show 7 = 2 ^ 3 - 1 from rfl, Nat.and_two_pow_sub_one_eq_mod]; omega
  rw [e1, e2, Nat.or_comm, or_shift_eq (by omega)]
  omega

theorem emits_pairs : ∀ L : List Nat, (∀ p ∈ L, p < 8) →
    Emits (putPairs ((L.length + 1) / 2) (L ++ [0])) (packed L)
  | [], _ => emits_skip
  | [a], h => by
    have ha : a < 8 := h a (by simp)
    have := (emits_put8 (a + 16 * 0)).seq emits_skip
    simp only [List.length_cons, List.length_nil, List.cons_append, List.nil_append, putPairs]
    rw [byte_eq ha (by omega)]
    simpa [packed, be1] using this
  | a :: b :: r, h => by
    have ha : a < 8 := h a (by simp)
    have hb : b < 8 := h b (by simp)
    have ih := emits_pairs r fun p hp => h p (by simp [hp])
    have e : ((a :: b :: r).length + 1) / 2 = (r.length + 1) / 2 + 1 := by simp; omega
    rw [e]
    simp only [List.cons_append, putPairs]
    rw [byte_eq ha hb]
    have := (emits_put8 (a + 16 * b)).seq ih
    simpa [packed, be1] using this

theorem packed_length : ∀ L : List Nat, (packed L).length = (L.length + 1) / 2
  | [] => rfl
  | [a] => by simp [packed]
  | a :: b :: r => by
    have := packed_length r
    simp only [packed, List.length_cons, this]; omega

/-- The pairs the parser collects. -/
def pairs : List Nat → List (List Nat)
  | [] => []
  | [a] => [[a, 0]]
  | a :: b :: r => [a, b] :: pairs r

theorem parses_pair {a b : Nat} (ha : a < 8) (hb : b < 8) :
    Parses (do let x ← get8; pure [x &&& 7, (x >>> 4) &&& 7]) [UInt8.ofNat (a + 16 * b)] [a, b] := by
  have h := (parses_get8' (v := a + 16 * b) (by omega)).bind_nil
    (f := fun x => (pure [x &&& 7, (x >>> 4) &&& 7] : P (List Nat))) (parses_pure _)
  rw [be1] at h
  refine h.congr rfl ?_
  rw [show 7 = 2 ^ 3 - 1 from rfl, Nat.and_two_pow_sub_one_eq_mod, Nat.and_two_pow_sub_one_eq_mod,
    Nat.shiftRight_eq_div_pow]
  congr 1
  · omega
  · congr 1; omega

theorem parses_pairs : ∀ L : List Nat, (∀ p ∈ L, p < 8) →
    Parses (P.repeat ((L.length + 1) / 2) (do let x ← get8; pure [x &&& 7, (x >>> 4) &&& 7]))
      (packed L) (pairs L)
  | [], _ => parses_pure _
  | [a], h => by
    have := parses_pair (h a (by simp)) (show 0 < 8 by omega)
    have e : ([a].length + 1) / 2 = 0 + 1 := by simp
    rw [e]
    refine this.bind_nil (Parses.bind_nil (a := []) (parses_pure _) ?_)
    exact parses_pure _
  | a :: b :: r, h => by
    have ih := parses_pairs r fun p hp => h p (by simp [hp])
    have e : ((a :: b :: r).length + 1) / 2 = (r.length + 1) / 2 + 1 := by simp; omega
    rw [e]
    have := parses_pair (h a (by simp)) (h b (by simp))
    exact this.bind (ih.bind_nil (parses_pure _))

theorem pairs_flat : ∀ L : List Nat,
    (pairs L).flatMap id ++ List.replicate (L.length + 1 - ((pairs L).flatMap id).length) 0 = L ++ [0]
  | [] => rfl
  | [a] => rfl
  | a :: b :: r => by
    have ih := pairs_flat r
    simp only [pairs, List.flatMap_cons, id, List.cons_append, List.nil_append, List.length_cons]
    rw [← ih]
    simp only [Nat.add_sub_add_right]

theorem round_trip (version flags : Nat) (t : Padb) (L : List Nat) (h : Rep t L)
    (hv : version < 256) (hf : flags < 16777216) (hn : L.length < 4294967295) (hL : ∀ p ∈ L, p < 8) :
    ∃ t', BoxRoundTrip (calcSize t) (serialize version flags t) parseBody ((version, flags), t')
      (layout version flags L) ∧ Rep t' L := by
  have e1 : (L.length + 1) % 4294967296 = L.length + 1 := by omega
  refine ⟨⟨L.length, some (L ++ [0])⟩, ?_, ⟨rfl, Or.inl rfl⟩⟩
  have hsz : calcSize t = 16 + (L.length + 1) / 2 := by
    unfold calcSize; rw [h.count, e1]; omega
  unfold serialize
  rw [h.count, e1]
  refine BoxRoundTrip.ofFull (payload := be 4 L.length ++ packed L) ?_ ?_
    (by rw [List.length_append, be_length, packed_length]; omega) (by omega) (by decide) (by decide)
  · refine (emits_put32 _).then (Emits.thenAssert ?_)
    rcases h.pads with h' | ⟨rfl, _⟩
    · rw [h']; exact emits_pairs L hL
    · exact emits_skip
  · apply Parses.at
    refine (parses_versionFlags hv hf).bind ((parses_get32' (by omega)).bind ?_)
    rw [if_neg (by omega)]
    refine (parses_pairs L hL).bind_nil ?_
    rw [pairs_flat]
    exact parses_pure _

/-- For every history of additions in which padding is mentioned at least once, however late: every
sample is reported with the padding given for it (0 if nothing was said), before and after the table
is written and parsed; other sample numbers are refused. -/
theorem c19_padding_bits (version flags : Nat) (as : List Add) (L : List Nat)
    (hL : L = as.flatMap Add.values) (hv : version < 256) (hf : flags < 16777216)
    (hn : L.length < 4294967295) (hpad : ∀ p ∈ L, p < 8) (hsome : ∃ b, Add.pads b ∈ as) :
    ∃ n t t', runAll addOne ⟨0, none⟩ as = .ok ⟨n, some t⟩ ∧
      BoxRoundTrip (calcSize t) (serialize version flags t) parseBody ((version, flags), t')
        (layout version flags L) ∧
      (∀ (i p : Nat), L[i]? = some p →
        samplePad ⟨n, some t⟩ (i + 1) = .ok p ∧ samplePad ⟨n, some t'⟩ (i + 1) = .ok p) ∧
      (∀ i, i = 0 ∨ L.length < i →
        samplePad ⟨n, some t⟩ i = .err .badParam ∧ samplePad ⟨n, some t'⟩ i = .err .badParam) := by
  subst hL
  obtain ⟨⟨n, p⟩, h1, h2, h3⟩ := run as ⟨0, none⟩ [] ⟨rfl, by simp⟩ (by simpa using hn)
  simp only [List.nil_append] at h2 h3
  cases p with
  | none =>
    obtain ⟨b, hb⟩ := hsome
    obtain ⟨k, hk⟩ := h3 _ hb
    cases hk
  | some t =>
    obtain ⟨t', g1, g2⟩ := round_trip version flags t _ h3.1 hv hf hn hpad
    exact ⟨n, t, t', h1, g1, fun i p hp => ⟨h3.1.get.1 i p hp, g2.get.1 i p hp⟩,
      fun i hi => ⟨h3.1.get.2 i hi, g2.get.2 i hi⟩⟩

/-- If padding is never mentioned there is no table. -/
theorem c19_never_mentioned (as : List Add) (hs : ∀ a ∈ as, ∃ n, a = Add.silent n)
    (hn : (as.flatMap Add.values).length < 4294967295) :
    ∃ n, runAll addOne ⟨0, none⟩ as = .ok ⟨n, none⟩ := by
  obtain ⟨⟨n, p⟩, h1, h2, h3⟩ := run as ⟨0, none⟩ [] ⟨rfl, by simp⟩ (by simpa using hn)
  cases p with
  | none => exact ⟨n, h1⟩
  | some t =>
    obtain ⟨b, hb⟩ := h3.2
    obtain ⟨k, hk⟩ := hs _ (by simpa using hb)
    cases hk

/-- In the standard the earlier sample of a pair is in the high half of the byte; the library
writes it in the low half. -/
theorem c19_halves_swapped :
    runW 17 (serialize 0 0 ⟨2, some [1, 2, 0]⟩) =
      .ok [0, 0, 0, 17, 0x70, 0x61, 0x64, 0x62, 0, 0, 0, 0, 0, 0, 0, 2, 0x21] := by decide

/-- Padding mentioned late, an odd number of samples. -/
example : runAll addOne ⟨0, none⟩ [.silent 2, .pads (.each [3, 7]), .pads (.uniform 1 5)] =
    .ok ⟨5, some ⟨5, some [0, 0, 3, 7, 5, 0]⟩⟩ := by decide

end Verif.Padb
