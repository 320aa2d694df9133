import Verif.Lemmas.FragFile

/-! # The movie fragment box, for C56 -/

namespace Verif.FragFile

open Traf (Entry Run Tfhd Tfdt Trex RTraf has head ready kids back Fits prepare_eq size_eq ser_eq)
open Movie (mapRes mapRes_map)

/-! ## A track fragment with its base set -/

def rebase (b : Nat) (t : Traf.Traf) : Traf.Traf := { t with tfhd := { t.tfhd with base := b } }

/-- A track fragment after `calculateSize`. -/
def prep (t : Traf.Traf) : Traf.Traf :=
  if t.runs = [] then { t with tfhd := Traf.defaults t.tfhd t.runs }
  else { t with tfhd := head t, runs := t.runs.map (ready (head t)) }

theorem fold_base (i b : Nat) : ∀ (rs : List Run) (h : Tfhd),
    rs.foldl (Traf.calculateDefaults i) { h with base := b } =
      { rs.foldl (Traf.calculateDefaults i) h with base := b } := by
  intro rs
  induction rs with
  | nil => intro h; rfl
  | cons r rs ih =>
    intro h
    rw [List.foldl_cons, List.foldl_cons, ← ih]
    congr 1
    unfold Traf.calculateDefaults
    cases r.entries <;> rfl

theorem defaults_base (h : Tfhd) (rs : List Run) (b : Nat) :
    Traf.defaults { h with base := b } rs = { Traf.defaults h rs with base := b } := by
  unfold Traf.defaults
  have e := fold_base 2 b rs { h with duration := 0, size := 0, sampleFlags := 0 }
  dsimp only at e ⊢
  rw [e]
  dsimp only
  split
  · exact fold_base 1 b rs _
  · rfl

theorem head_rebase (b : Nat) (t : Traf.Traf) : head (rebase b t) = { head t with base := b } := by
  unfold head rebase
  dsimp only
  rw [defaults_base]
  rfl

theorem moveBase_prep {b : Nat} {t : Traf.Traf} (h : t.runs ≠ []) :
    moveBase b (prep t) = { rebase b t with tfhd := head (rebase b t), runs := (rebase b t).runs.map (ready (head (rebase b t))) } := by
  unfold moveBase prep
  rw [if_neg h, if_neg (by simpa using h), head_rebase]
  rfl

theorem size_prep {b : Nat} {t : Traf.Traf} (h : t.runs ≠ []) :
    Traf.size (prep t) = Traf.size (moveBase b (prep t)) := by
  rw [moveBase_prep h, head_rebase]
  unfold prep
  rw [if_neg h]
  rfl

def trafBytes (b : Nat) (t : Traf.Traf) : Bytes :=
  if t.runs = [] then [] else box Traf.typeTraf ((kids (rebase b t)).flatMap (·.2))

/-- Written or left out. -/
def TrafOk (t : Traf.Traf) : Prop := t.runs = [] ∨ Fits t

theorem rebase_fits {t : Traf.Traf} (h : Fits t) {b : Nat} (hb : b < 2 ^ 64) : Fits (rebase b t) :=
  ⟨h.version, h.track, hb, h.index, h.time, h.some, h.runs, h.small⟩

theorem prepare_ok {t : Traf.Traf} (h : TrafOk t) : Traf.prepare t = .ok (prep t) := by
  rcases h with h | h
  · unfold Traf.prepare prep
    dsimp only
    rw [if_pos h, if_pos h]
  · rw [prepare_eq h]
    unfold prep
    rw [if_neg h.some]

theorem size_ok {t : Traf.Traf} (h : TrafOk t) {b : Nat} (hb : b < 2 ^ 64) :
    Traf.size (prep t) = .ok (trafBytes b t).length ∧ (trafBytes b t).length < 4294967296 := by
  rcases h with h | h
  · unfold Traf.size prep trafBytes
    rw [if_pos h, if_pos h]
    simp [h]
  · obtain ⟨e1, e2⟩ := size_eq (rebase_fits h hb)
    rw [size_prep (b := b) h.some, moveBase_prep h.some, e1]
    unfold trafBytes
    rw [if_neg h.some]
    have : (box Traf.typeTraf ((kids (rebase b t)).flatMap (·.2))).length =
        8 + ((kids (rebase b t)).flatMap (·.2)).length := by
      simp only [box, List.length_append, be_length]
    rw [this]
    exact ⟨rfl, e2⟩

theorem emits_traf {t : Traf.Traf} (h : TrafOk t) {b : Nat} (hb : b < 2 ^ 64) :
    Emits (nested (trafBytes b t).length (Traf.ser (trafBytes b t).length (moveBase b (prep t)))) (trafBytes b t) := by
  rcases h with h | h
  · have e : trafBytes b t = [] := if_pos h
    rw [e]
    exact emits_nested (by unfold Traf.ser; rfl) rfl
  · obtain ⟨-, e2⟩ := size_eq (rebase_fits h hb)
    have hl : (trafBytes b t).length = 8 + ((kids (rebase b t)).flatMap (·.2)).length := by
      unfold trafBytes
      rw [if_neg h.some]
      simp only [box, List.length_append, be_length]
    refine emits_nested ?_ rfl
    rw [moveBase_prep h.some]
    have := (ser_eq (rebase_fits h hb) _ hl).runW (size := (trafBytes b t).length)
      (by simp only [List.length_append, be_length]; omega) (by omega)
    rw [this, hl]
    unfold trafBytes
    rw [if_neg h.some]
    rfl

theorem kids_le {t : Traf.Traf} (h : Fits t) :
    ((kids t).flatMap (·.2)).length ≤ 60 + (t.runs.map fun r => 24 + 16 * r.entries.length).sum := by
  have hsm := h.small
  have hm : ((t.runs.map (ready (head t))).map fun r => 24 + 16 * r.entries.length) =
      t.runs.map fun r => 24 + 16 * r.entries.length := by
    rw [List.map_map]; rfl
  have hfl : (t.runs.map fun r => (Traf.Member.trun (Traf.seen (ready (head t) r)), Traf.runBox (ready (head t) r))).flatMap (·.2) =
      (t.runs.map (ready (head t))).flatMap Traf.runBox := by
    simp [List.flatMap_map]
  have hr := (Traf.runs_size (t.runs.map (ready (head t))) 0 (by rw [hm]; omega)).2
  rw [hm] at hr
  obtain ⟨hz, hle⟩ := Traf.tfhdPayload_length (head t)
  have hb : (Traf.tfhdBox (head t)).length ≤ 40 := by
    simp only [Traf.tfhdBox, fullBox, box, List.length_append, be_length]; omega
  unfold kids
  simp only [List.cons_append, List.flatMap_cons, List.flatMap_append, hfl, List.length_append]
  cases hd : t.tfdt with
  | none => simp only [List.flatMap_nil, List.length_nil]; omega
  | some d =>
    obtain ⟨h1, h2, h3, h4⟩ := Traf.tfdt_child (h.time d hd)
    have hb' : (Traf.tfdtBox d).length = 12 + (Traf.tfdtPayload d).length := by
      simp only [Traf.tfdtBox, fullBox, box, List.length_append, be_length]; omega
    simp only [List.flatMap_cons, List.flatMap_nil, List.append_nil, hb']
    omega

theorem trafBytes_le {t : Traf.Traf} (h : TrafOk t) {b : Nat} (hb : b < 2 ^ 64) :
    (trafBytes b t).length ≤ 68 + (t.runs.map fun r => 24 + 16 * r.entries.length).sum := by
  unfold trafBytes
  split
  · simp
  · rcases h with h | h
    · contradiction
    · have := kids_le (rebase_fits h hb)
      simp only [box, List.length_append, be_length]
      simp only [rebase] at this ⊢
      omega

/-! ## Writing -/

def moofPayload (seq b : Nat) (trafs : List Traf.Traf) : Bytes :=
  FragSeq.mfhdLayout ⟨0, 0, seq⟩ ++ trafs.flatMap (trafBytes b)

theorem mfhd_length (seq : Nat) : (FragSeq.mfhdLayout ⟨0, 0, seq⟩).length = 16 := by
  simp [FragSeq.mfhdLayout, fullBox, box]

theorem length_indep {trafs : List Traf.Traf} (h : ∀ t ∈ trafs, TrafOk t) {b c : Nat} (hb : b < 2 ^ 64) (hc : c < 2 ^ 64) :
    (trafs.map fun t => (trafBytes b t).length) = trafs.map fun t => (trafBytes c t).length := by
  apply List.map_congr_left
  intro t ht
  have e1 := (size_ok (h t ht) hb).1
  rw [(size_ok (h t ht) hc).1] at e1
  injection e1 with e1
  exact e1.symm

theorem flat_length {α : Type} (l : List α) (g : α → Bytes) : (l.flatMap g).length = (l.map fun x => (g x).length).sum := by
  induction l with
  | nil => rfl
  | cons x l ih => simp only [List.flatMap_cons, List.length_append, List.map_cons, List.sum_cons, ih]

theorem putMoof_eq {trafs : List Traf.Traf} (h : ∀ t ∈ trafs, TrafOk t) (pre seq mdat b : Nat)
    (hseq : seq < 4294967296) (hn : 24 + (trafs.flatMap (trafBytes 0)).length < 4294967296)
    (hb : b = u64i (s32 (Movie.moveUp pre (24 + (trafs.flatMap (trafBytes 0)).length) mdat))) :
    putMoof pre seq trafs mdat = .ok (box typeMoof (moofPayload seq b trafs)) := by
  have hb64 : b < 2 ^ 64 := by subst hb; unfold u64i; omega
  have h0 : (0 : Nat) < 2 ^ 64 := by decide
  unfold putMoof
  rw [mapRes_map prep _ fun t ht => prepare_ok (h t ht), bind_ok]
  have e2 : mapRes Traf.size (trafs.map prep) = .ok (trafs.map fun t => (trafBytes b t).length) := by
    rw [mapRes_map (fun t => match Traf.size t with | .ok n => n | _ => 0)]
    · rw [List.map_map]
      congr 1
      apply List.map_congr_left
      intro t ht
      simp only [Function.comp_apply, (size_ok (h t ht) hb64).1]
    · intro x hx
      obtain ⟨t, ht, rfl⟩ := List.mem_map.1 hx
      rw [(size_ok (h t ht) hb64).1]
  have hsum : (trafs.map fun t => (trafBytes b t).length).sum = (trafs.flatMap (trafBytes 0)).length := by
    rw [length_indep h hb64 h0, flat_length]
  have hfb : (trafs.flatMap (trafBytes b)).length = (trafs.flatMap (trafBytes 0)).length := by
    rw [flat_length, hsum]
  rw [e2, bind_ok, hsum, Nat.mod_eq_of_lt hn, ← hb]
  have hl : (box typeMoof (moofPayload seq b trafs)).length = 24 + (trafs.flatMap (trafBytes 0)).length := by
    simp only [box, moofPayload, List.length_append, be_length, mfhd_length, hfb]
    omega
  have key : EmitsFull (moofSer (24 + (trafs.flatMap (trafBytes 0)).length) seq
      ((trafs.map fun t => (trafBytes b t).length).zip ((trafs.map prep).map (moveBase b))))
      (box typeMoof (moofPayload seq b trafs)) := by
    unfold moofSer
    have e : box typeMoof (moofPayload seq b trafs) =
        (be 4 (24 + (trafs.flatMap (trafBytes 0)).length) ++ be 4 typeMoof) ++
          (FragSeq.mfhdLayout ⟨0, 0, seq⟩ ++ trafs.flatMap (trafBytes b)) := by
      unfold box
      congr 3
      simp only [moofPayload, List.length_append, mfhd_length, hfb]
      omega
    rw [e]
    refine (emits_serBase _ _).then (Emits.then ?_ (Emits.thenAssert ?_))
    · exact emits_nested (FragSeq.c29_header ⟨0, 0, seq⟩ (Nat.zero_lt_succ _) (Nat.two_pow_pos 24) hseq).write (mfhd_length seq)
    · have ez : (trafs.map fun t => (trafBytes b t).length).zip ((trafs.map prep).map (moveBase b)) =
          trafs.map fun t => ((trafBytes b t).length, moveBase b (prep t)) := by
        rw [List.map_map]
        rw [List.zip_map']
        rfl
      rw [ez]
      clear ez e hl hfb hsum e2 hn hb
      induction trafs with
      | nil => exact emits_skip
      | cons t ts ih =>
        rw [List.map_cons, List.flatMap_cons]
        exact (emits_traf (h t (by simp)) hb64).seq (ih fun x hx => h x (by simp [hx]))
  exact key.runW hl hn

/-! ## Reading -/

def MChild (m : Member) (bs : Bytes) : Prop :=
  8 ≤ bs.length ∧ ∀ rest, ∃ hd, parseAtom memberParse (bs ++ rest) = .ok (m, hd, rest) ∧ hd.size = bs.length

theorem mfhd_child {seq : Nat} (hs : seq < 4294967296) :
    MChild (.mfhd ⟨0, 0, seq⟩) (FragSeq.mfhdLayout ⟨0, 0, seq⟩) := by
  refine ⟨by rw [mfhd_length]; decide, fun rest => ⟨⟨16, FragSeq.typeMfhd, [], 0, 8⟩, ?_, by rw [mfhd_length]⟩⟩
  have hp : ParsesAt (memberParse ⟨16, FragSeq.typeMfhd, [], 0, 8⟩) 8 (be 1 0 ++ be 3 0 ++ be 4 seq)
      (.mfhd ⟨0, 0, seq⟩) := by
    apply Parses.at
    have e : memberParse ⟨16, FragSeq.typeMfhd, [], 0, 8⟩ =
        Member.mfhd <$> FragSeq.mfhdParse ⟨16, FragSeq.typeMfhd, [], 0, 8⟩ := by
      unfold memberParse; simp
    rw [e]
    refine Parses.map _ ?_
    unfold FragSeq.mfhdParse
    refine (parses_versionFlags (by decide) (by decide)).bind ?_
    exact (parses_get32' hs).bind_nil (parses_pure _)
  exact parseAtom_small hp (by simp) (by decide) (by decide) (by decide) rest

theorem parses_traf {t : Traf.Traf} (ht : Fits t) (n : Nat) (hn : 8 + ((kids t).flatMap (·.2)).length = n) :
    ParsesAt (memberParse ⟨n, Traf.typeTraf, [], 0, 8⟩) 8 ((kids t).flatMap (·.2)) (.traf (back t)) := by
  obtain ⟨-, h2⟩ := size_eq ht
  have e : memberParse ⟨n, Traf.typeTraf, [], 0, 8⟩ = Member.traf <$> Traf.parse ⟨n, Traf.typeTraf, [], 0, 8⟩ := by
    unfold memberParse; simp [Traf.typeTraf, FragSeq.typeMfhd]
  intro r
  rw [e]
  refine Traf.mapAt _ ?_
  unfold Traf.parse
  have hk := Traf.length_le_flatMap (g := fun c : Traf.Member × Bytes => c.2) fun c hc => (Traf.kids_child ht c hc).1
  rw [Traf.members_children n (by omega) r (kids t) _ _ 8 (Traf.kids_child ht) (by simp only [List.length_append]; omega) hn,
    Traf.kids_back, bind_ok]
  dsimp only
  rw [if_neg (by simp), hn]

theorem traf_child {t : Traf.Traf} (ht : Fits t) :
    MChild (.traf (back t)) (box Traf.typeTraf ((kids t).flatMap (·.2))) := by
  obtain ⟨-, h2⟩ := size_eq ht
  generalize hn : 8 + ((kids t).flatMap (·.2)).length = n at h2
  have hl : (box Traf.typeTraf ((kids t).flatMap (·.2))).length = n := by
    simp only [box, List.length_append, be_length]; omega
  refine ⟨by omega, fun rest => ⟨⟨n, Traf.typeTraf, [], 0, 8⟩, ?_, hl.symm⟩⟩
  have := parseAtom_small (parses_traf ht n hn) hn.symm h2 (by decide) (by decide) rest
  unfold box
  rw [hn]
  exact this

theorem members_children (size : Nat) (hs : size < 4294967296) (rest : Bytes) :
    ∀ (cs : List (Member × Bytes)) (n : Nat) (t : RMoof) (k : Nat), (∀ c ∈ cs, MChild c.1 c.2) →
      cs.length < n → k + (cs.flatMap (·.2)).length = size →
      members n size t ⟨cs.flatMap (·.2) ++ rest, k⟩ = .ok ((cs.map (·.1)).foldl addAtom t, ⟨rest, size⟩) := by
  intro cs
  induction cs with
  | nil =>
    intro n t k _ hn hk
    cases n with
    | zero => simp at hn
    | succ n =>
      simp only [List.flatMap_nil, List.length_nil, Nat.add_zero] at hk
      subst hk
      simp [members]
  | cons c cs ih =>
    intro n t k hc hn hk
    cases n with
    | zero => simp at hn
    | succ n =>
      obtain ⟨h8, h⟩ := hc c (by simp)
      simp only [List.flatMap_cons, List.length_append, List.length_cons, List.append_assoc] at hk hn ⊢
      obtain ⟨hd, hp, hz⟩ := h (cs.flatMap (·.2) ++ rest)
      simp only [members]
      rw [if_pos (by omega), hp]
      simp only
      rw [hz, Nat.mod_eq_of_lt (by omega),
        ih n _ _ (fun x hx => hc x (by simp [hx])) (by omega) (by omega)]
      simp

/-- The track fragments that are written. -/
def kept (trafs : List Traf.Traf) : List Traf.Traf := trafs.filter fun t => !t.runs.isEmpty

theorem flat_kept (b : Nat) (trafs : List Traf.Traf) :
    trafs.flatMap (trafBytes b) = (kept trafs).flatMap fun t => box Traf.typeTraf ((kids (rebase b t)).flatMap (·.2)) := by
  induction trafs with
  | nil => rfl
  | cons t ts ih =>
    rw [List.flatMap_cons, ih]
    unfold kept trafBytes
    by_cases h : t.runs = []
    · rw [if_pos h, List.filter_cons_of_neg (by simp [h])]
      rfl
    · rw [if_neg h, List.filter_cons_of_pos (by simp [h]), List.flatMap_cons]

def moofBack (seq b : Nat) (trafs : List Traf.Traf) : RMoof :=
  ⟨some ⟨0, 0, seq⟩, (kept trafs).map fun t => some (back (rebase b t))⟩

theorem addTrafs (rs : List RTraf) : ∀ m : RMoof,
    (rs.map Member.traf).foldl addAtom m = { m with trafs := m.trafs ++ rs.map some } := by
  induction rs with
  | nil => intro m; simp
  | cons r rs ih => intro m; simp [addAtom, ih]

theorem parse_moof {trafs : List Traf.Traf} (h : ∀ t ∈ trafs, TrafOk t) {seq b : Nat} (hseq : seq < 4294967296)
    (hb : b < 2 ^ 64) (hl : 8 + (moofPayload seq b trafs).length < 4294967296) (rest : Bytes) :
    parseAtom parse (box typeMoof (moofPayload seq b trafs) ++ rest) =
      .ok (moofBack seq b trafs, ⟨8 + (moofPayload seq b trafs).length, typeMoof, [], 0, 8⟩, rest) := by
  refine parseAtom_small (v := moofBack seq b trafs) ?_ rfl hl (by decide) (by decide) rest
  intro r
  let cs : List (Member × Bytes) := (.mfhd ⟨0, 0, seq⟩, FragSeq.mfhdLayout ⟨0, 0, seq⟩) ::
    (kept trafs).map fun t => (.traf (back (rebase b t)), box Traf.typeTraf ((kids (rebase b t)).flatMap (·.2)))
  have hcs : moofPayload seq b trafs = cs.flatMap (·.2) := by
    simp only [cs, moofPayload, flat_kept, List.flatMap_cons, List.flatMap_map]
  have hch : ∀ c ∈ cs, MChild c.1 c.2 := by
    intro c hc
    rcases List.mem_cons.1 hc with rfl | hc
    · exact mfhd_child hseq
    · obtain ⟨t, ht, rfl⟩ := List.mem_map.1 hc
      unfold kept at ht
      obtain ⟨ht, hr⟩ := List.mem_filter.1 ht
      rcases h t ht with h | h
      · simp [h] at hr
      · exact traf_child (rebase_fits h hb)
  have hk := Traf.length_le_flatMap (g := fun c : Member × Bytes => c.2) fun c hc => (hch c hc).1
  unfold parse
  rw [hcs] at hl ⊢
  rw [members_children _ hl r cs _ _ 8 hch (by simp only [List.length_append]; omega) rfl]
  simp only [bind_ok]
  rw [if_neg (by simp)]
  congr 2
  have e : (cs.map (·.1)) = Member.mfhd ⟨0, 0, seq⟩ :: ((kept trafs).map fun t => back (rebase b t)).map Member.traf := by
    simp [cs]
  rw [e, List.foldl_cons, addTrafs]
  simp [addAtom, moofBack]

theorem henc_empty : ∀ i d s f : Bool, has (Traf.henc i d s f) 0x10000 = false := by decide

theorem gather_eq (trex : Nat → Option Trex) (moof b : Nat) (hb : b < 2 ^ 64) : ∀ (ts : List Traf.Traf) (base : Nat),
    (∀ t ∈ ts, Fits t ∧ t.tfhd.trackId ≠ 0 ∧ trex t.tfhd.trackId = some t.trex) →
    gather trex moof (ts.map fun t => some (back (rebase b t))) base =
      .ok (ts.map fun t => ⟨t.tfhd.trackId, t.tfdt.map Tfdt.time,
        t.runs.map fun r => (((b + s32 r.dataOffset) % 2 ^ 64).toNat, r.entries)⟩) := by
  intro ts
  induction ts with
  | nil => intro base _; rfl
  | cons t ts ih =>
    intro base h
    obtain ⟨h1, h2, h3⟩ := h t (by simp)
    have hf := rebase_fits h1 hb
    have hk := Traf.defaults_keeps (rebase b t).tfhd hf.runs
    have ht : (Traf.hseen (head (rebase b t))).trackId = t.tfhd.trackId := hk.track
    have hb' : (head (rebase b t)).base = b := hk.base
    rw [List.map_cons, gather]
    have e0 : (back (rebase b t)).tfhd = some (Traf.hseen (head (rebase b t))) := rfl
    have e1 : (back (rebase b t)).runs = (rebase b t).runs.map fun r => Traf.seen (ready (head (rebase b t)) r) := rfl
    have e2 : (back (rebase b t)).tfdt = t.tfdt := rfl
    rw [e0, e1, e2]
    dsimp only
    rw [ht, if_neg h2, h3]
    dsimp only
    have e : t.trex = (rebase b t).trex := rfl
    have hne : has (Traf.hseen (head (rebase b t))).flags 0x10000 = false := by
      show has (Traf.tfhdFlags _ _) 0x10000 = false
      rw [Traf.tfhdFlags_eq]
      exact henc_empty _ _ _ _
    rw [if_neg (by rw [hne]; decide)]
    rw [e, Traf.fill_head, Traf.mergeRuns_eq fun r hr => (hf.runs r hr).some, bind_ok]
    rw [ih _ fun x hx => h x (by simp [hx]), bind_ok, hb']
    rfl

end Verif.FragFile
