import Verif.Model.AuxList
import Verif.Props.C63

/-!
# C98: the kinds of sample auxiliary information of a media can be listed

The function stores the answer over the records of the handles, so this fails for every media that has auxiliary information.
-/

namespace Verif.AuxInfo

/-- What the caller finds in a handle: its block if the handle is still one, of which `mem` holds the bytes at an address. -/
def Rec.contents (mem : Nat → UInt8) (r : Rec) : Res Bytes :=
  if r.signature ≠ 0x1234 then .err .badParam else .ok ((List.range r.size).map fun i => mem (r.data + i))

theorem le_length (n : Nat) : ∀ v, (le n v).length = n := by
  induction n with
  | zero => intro v; rfl
  | succ n ih => intro v; simp [le, ih]

theorem unle_le (n : Nat) : ∀ v, unle (le n v) = v % 256 ^ n := by
  induction n with
  | zero => intro v; simp [le, unle, Nat.mod_one]
  | succ n ih =>
    intro v
    unfold le unle
    rw [ih, Nat.pow_succ, Nat.mul_comm (256 ^ n) 256, Nat.mod_mul]
    rw [show (UInt8.ofNat (v % 256)).toNat = v % 256 from by simp]

theorem unle_append (a b : Bytes) : unle (a ++ b) = unle a + 256 ^ a.length * unle b := by
  induction a with
  | nil => simp [unle]
  | cons x a ih =>
    simp only [List.cons_append, unle, ih, List.length_cons, Nat.pow_succ]
    rw [Nat.mul_add, Nat.add_assoc, Nat.mul_comm (256 ^ a.length) 256, Nat.mul_assoc]

/-- The address of a handle after storing is the first value, as far as it goes. -/
theorem store_data {r r' : Rec} {n v : Nat} {rest : Bytes} (h : r.store (le n v ++ rest) = .ok r') (hn : n ≤ 8) :
    r'.data % 256 ^ n = v % 256 ^ n := by
  unfold Rec.store at h
  split at h
  · cases h
    show unle (List.take 8 (le n v ++ rest ++ _)) % _ = _
    rw [List.append_assoc, List.take_append, List.take_of_length_le (by rw [le_length]; exact hn), unle_append, le_length, unle_le,
      Nat.add_mul_mod_self_left, Nat.mod_mod]
  · cases h

theorem flatMap_le_length (l : List Saiz.Box) (f : Saiz.Box → Nat) : (l.flatMap fun z => le 4 (f z)).length = l.length * 4 := by
  induction l with
  | nil => rfl
  | cons z l ih => simp only [List.flatMap_cons, List.length_append, le_length, ih, List.length_cons]; omega

theorem setSize_ok {r : Rec} (h : r.signature = 0x1234) (n p : Nat) : ∃ r', r.setSize n p = .ok r' := by
  unfold Rec.setSize
  rw [if_neg (by rw [h]; decide)]
  split <;> exact ⟨_, rfl⟩

theorem store_ok (r : Rec) {vals : Bytes} (h : vals.length ≤ 32) : ∃ r', r.store vals = .ok r' := by
  unfold Rec.store
  rw [if_pos h]
  exact ⟨_, rfl⟩

theorem history (drefs : Nat) (h : List Call) (hv : AllValid drefs [] h) (hf : Fits h) :
    ∃ (s : S) (L : List E), runAll apply (start drefs) h = .ok s ∧ s.saiz = L.map E.z ∧ L.map E.key = (setups h).map Prod.fst := by
  have r0 : Rep (start drefs) [] [] [] := by
    refine ⟨Media.rep_create drefs, rfl, rfl, by simp, by simp, rfl, by simp, by simp [infos], by simp, by simp, by simp [hasDesc]⟩
  obtain ⟨s, L, C, h1, r, hC⟩ := run_rep h r0 rfl (by simp) hv (by simpa using hf)
  rw [List.nil_append] at r
  exact ⟨s, L, h1, r.saiz, r.keys_eq⟩

/-- The number of kinds is right, as long as there are at most 8 of them; their values are not where the caller looks for them. -/
theorem c98_count_partial (drefs : Nat) (h : List Call) (hv : AllValid drefs [] h) (hf : Fits h) (f t p : Rec)
    (sf : f.signature = 0x1234) (st : t.signature = 0x1234) (sp : p.signature = 0x1234) (newF newT newP : Nat)
    (h8 : (setups h).length ≤ 8) :
    ∃ s f' t' p', runAll apply (start drefs) h = .ok s ∧ list s.saiz f t p newF newT newP = .ok ((setups h).length, f', t', p') := by
  obtain ⟨s, L, h1, h2, h3⟩ := history drefs h hv hf
  have hlen : s.saiz.length = (setups h).length := by
    have := congrArg List.length h3
    rw [h2]
    simpa using this
  obtain ⟨f1, e1⟩ := setSize_ok sf w32(s.saiz.length) newF
  obtain ⟨t1, e2⟩ := setSize_ok st w32(s.saiz.length * 4) newT
  obtain ⟨p1, e3⟩ := setSize_ok sp w32(s.saiz.length * 4) newP
  obtain ⟨f2, e4⟩ := store_ok f1 (vals := s.saiz.map fun z => UInt8.ofNat z.flags) (by rw [List.length_map]; omega)
  obtain ⟨t2, e5⟩ := store_ok t1 (vals := s.saiz.flatMap fun z => le 4 z.auxType) (by rw [flatMap_le_length]; omega)
  obtain ⟨p2, e6⟩ := store_ok p1 (vals := s.saiz.flatMap fun z => le 4 z.auxParam) (by rw [flatMap_le_length]; omega)
  refine ⟨s, f2, t2, p2, h1, ?_⟩
  unfold list
  rw [e1, e2, e3]
  simp only [Res.ok_bind]
  rw [e4, e5, e6, hlen]
  rfl

/-- **The claim fails for every media with auxiliary information.** The address of the block of each handle becomes the value of the first kind
(the flag takes one byte of it, the others four), whatever the handles were; with more than 8 kinds memory behind the records is
overwritten. -/
theorem c98_not_listed (drefs : Nat) (h : List Call) (hv : AllValid drefs [] h) (hf : Fits h) (k : Key) (d : Nat) (l : List (Key × Nat))
    (hs : setups h = (k, d) :: l) (f t p : Rec) (newF newT newP : Nat) :
    ∃ s, runAll apply (start drefs) h = .ok s ∧
      (∀ n f' t' p', list s.saiz f t p newF newT newP = .ok (n, f', t', p') →
        f'.data % 256 = k.flag % 256 ∧ t'.data % 2 ^ 32 = k.type % 2 ^ 32 ∧ p'.data % 2 ^ 32 = k.param % 2 ^ 32) ∧
      (8 < (setups h).length → f.signature = 0x1234 → t.signature = 0x1234 → p.signature = 0x1234 →
        list s.saiz f t p newF newT newP = .ub) := by
  obtain ⟨s, L, h1, h2, h3⟩ := history drefs h hv hf
  have hlen : s.saiz.length = (setups h).length := by
    have := congrArg List.length h3
    rw [h2]
    simpa using this
  refine ⟨s, h1, fun n f' t' p' hl => ?_, fun h8 sf st sp => ?_⟩
  · rw [hs] at h3
    match L, h3 with
    | e :: L, h3 =>
      simp only [List.map_cons, List.cons.injEq] at h3
      rw [h2] at hl
      unfold list at hl
      generalize w32(List.length _) = n1 at hl
      generalize w32(List.length _ * 4) = n2 at hl
      cases e1 : f.setSize n1 newF with
      | err x => rw [e1] at hl; cases hl
      | ub => rw [e1] at hl; cases hl
      | ok f1 =>
      cases e2 : t.setSize n2 newT with
      | err x => rw [e1, e2] at hl; cases hl
      | ub => rw [e1, e2] at hl; cases hl
      | ok t1 =>
      cases e3 : p.setSize n2 newP with
      | err x => rw [e1, e2, e3] at hl; cases hl
      | ub => rw [e1, e2, e3] at hl; cases hl
      | ok p1 =>
      rw [e1, e2, e3] at hl
      simp only [Res.ok_bind] at hl
      cases e4 : f1.store ((List.map E.z (e :: L)).map fun z => UInt8.ofNat z.flags) with
      | err x => rw [e4] at hl; cases hl
      | ub => rw [e4] at hl; cases hl
      | ok f2 =>
      cases e5 : t1.store ((List.map E.z (e :: L)).flatMap fun z => le 4 z.auxType) with
      | err x => rw [e4, e5] at hl; cases hl
      | ub => rw [e4, e5] at hl; cases hl
      | ok t2 =>
      cases e6 : p1.store ((List.map E.z (e :: L)).flatMap fun z => le 4 z.auxParam) with
      | err x => rw [e4, e5, e6] at hl; cases hl
      | ub => rw [e4, e5, e6] at hl; cases hl
      | ok p2 =>
      rw [e4, e5, e6] at hl
      cases hl
      refine ⟨?_, ?_, ?_⟩
      · have := store_data (n := 1) (v := k.flag) (r := f1) (r' := f') (rest := (L.map E.z).map fun z => UInt8.ofNat z.flags) (by
          rw [← e4]
          congr 1
          show UInt8.ofNat (k.flag % 256) :: _ = UInt8.ofNat e.key.flag :: _
          rw [h3.1]
          congr 1
          apply UInt8.toNat_inj.mp
          simp) (by decide)
        simpa using this
      · have := store_data (n := 4) (v := k.type) (r := t1) (r' := t') (rest := (L.map E.z).flatMap fun z => le 4 z.auxType) (by
          rw [← e5, ← h3.1]; rfl) (by decide)
        simpa using this
      · have := store_data (n := 4) (v := k.param) (r := p1) (r' := p') (rest := (L.map E.z).flatMap fun z => le 4 z.auxParam) (by
          rw [← e6, ← h3.1]; rfl) (by decide)
        simpa using this
  · obtain ⟨f1, e1⟩ := setSize_ok sf w32(s.saiz.length) newF
    obtain ⟨t1, e2⟩ := setSize_ok st w32(s.saiz.length * 4) newT
    obtain ⟨p1, e3⟩ := setSize_ok sp w32(s.saiz.length * 4) newP
    unfold list
    rw [e1, e2, e3]
    simp only [Res.ok_bind]
    have ht : t1.store (s.saiz.flatMap fun z => le 4 z.auxType) = .ub := by
      unfold Rec.store
      rw [if_neg (by rw [flatMap_le_length]; omega)]
    rw [ht]
    by_cases hl : s.saiz.length ≤ 32
    · obtain ⟨f2, e4⟩ := store_ok f1 (vals := s.saiz.map fun z => UInt8.ofNat z.flags) (by rw [List.length_map]; omega)
      rw [e4]
      rfl
    · unfold Rec.store
      rw [if_neg (by rw [List.length_map]; omega)]
      rfl

/-! ## Examples -/

/-- An empty handle, as a caller makes it. -/
def emptyRec : Rec := ⟨0, 0, 0x1234, 0, 0, 0⟩

theorem rec_back (r : Rec) (h1 : r.data < 2 ^ 64) (h2 : r.trueData < 2 ^ 64) (h3 : r.signature < 2 ^ 32) (h4 : r.size < 2 ^ 32)
    (h5 : r.alloc < 2 ^ 32) (h6 : r.offset < 2 ^ 32) : Rec.of r.bytes = r := by
  have hp : ∀ n v, (le n v).length = n := le_length
  unfold Rec.of Rec.bytes
  cases r with
  | mk a b c d e f =>
    simp only at *
    simp only [List.take_append, List.drop_append, hp, List.take_of_length_le, List.drop_of_length_le, List.take_zero, List.drop_zero,
      List.append_nil, List.nil_append, Nat.reduceSub, Nat.reduceLeDiff, unle_le, Nat.reducePow, Nat.le_refl]
    simp only [Rec.mk.injEq]
    omega

/-- Without auxiliary information nothing is stored. -/
theorem c98_none (drefs : Nat) (h : List Call) (hv : AllValid drefs [] h) (hf : Fits h) (hs : setups h = []) (mem : Nat → UInt8) :
    ∃ s f' t' p', runAll apply (start drefs) h = .ok s ∧ list s.saiz emptyRec emptyRec emptyRec 0 0 0 = .ok (0, f', t', p') ∧
      f'.contents mem = .ok [] ∧ t'.contents mem = .ok [] ∧ p'.contents mem = .ok [] := by
  obtain ⟨s, L, h1, h2, h3⟩ := history drefs h hv hf
  rw [hs] at h3
  have : L = [] := by simpa using h3
  subst this
  refine ⟨s, emptyRec, emptyRec, emptyRec, h1, ?_, rfl, rfl, rfl⟩
  rw [h2]
  decide +kernel

/-- One kind, handles of any contents: the caller then follows the address 0x63656e63 of the scheme type. -/
theorem c98_not_one : ∃ f' t' p', list [⟨0, 1, 0x63656e63, 0, 0, 0, []⟩] emptyRec emptyRec emptyRec 0x55550010 0x55550020 0x55550040 =
    .ok (1, f', t', p') ∧ t'.data = 0x63656e63 ∧ t'.trueData = 0x55550020 ∧ f'.data = 0x55550001 ∧ p'.data = 0 :=
  ⟨⟨0x55550001, 0x55550010, 0x1234, 1, 1, 0⟩, ⟨0x63656e63, 0x55550020, 0x1234, 4, 4, 0⟩, ⟨0, 0x55550040, 0x1234, 4, 4, 0⟩, by decide +kernel, rfl, rfl, rfl,
    rfl⟩

/-- With 5 kinds the handle is no longer taken for one. -/
theorem c98_not_five : (list ((List.range 5).map fun i => (⟨0, 1, i + 1, 0, 0, 0, []⟩ : Saiz.Box)) emptyRec emptyRec emptyRec 0x10 0x20 0x40).bind
    (fun r => r.2.2.1.contents fun _ => 0) = .err .badParam := by decide +kernel

example (jb : Nat → UInt8) (j : Nat → Nat) : AllValid 1 [] (demo jb j) ∧ Fits (demo jb j) ∧ setups (demo jb j) = [(keyA, 2), (keyB, 0)] :=
  ⟨demo_valid jb j, demo_fits jb j, by simp [demo, setups]⟩

example : Rec.of (Rec.bytes ⟨0x7f0012345678, 5, 0x1234, 7, 8, 9⟩) = ⟨0x7f0012345678, 5, 0x1234, 7, 8, 9⟩ := by decide +kernel

end Verif.AuxInfo
