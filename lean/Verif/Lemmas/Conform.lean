import Verif.Spec.Conform
import Verif.Lemmas.Moof

/-! # Fragments in the layout of the standard, for C57 -/

namespace Verif.Conform

open Traf (Entry Run Tfhd Tfdt Trex RTraf has enc seen hseen)
open FragFile (bind_ok)

/-! ## The runs and headers of the model -/

def toRun (r : ARun) : Run :=
  ⟨r.version, r.tr_flags, (r.place.getD 0 % 2 ^ 32).toNat, r.first.getD 0, r.samples⟩

def toTfhd (t : ATraf) : Tfhd :=
  ⟨0, t.tf_flags, t.id, t.base.getD 0, t.desc.getD 0, t.duration.getD 0, t.size.getD 0, t.flags.getD 0⟩

def toTfdt : Option (Bool × Nat) → Option Tfdt
  | none => none
  | some (true, v) => some ⟨1, 0, v⟩
  | some (false, v) => some ⟨0, 0, v⟩

theorem flags_enc : ∀ a b d s f c : Bool, (b → f = false) →
    bit a 1 + bit b 4 + bit d 0x100 + bit s 0x200 + bit f 0x400 + bit c 0x800 = enc a b d s f c := by decide

theorem tr_flags_eq {r : ARun} (h : RunOk r) : r.tr_flags =
    enc r.place.isSome r.first.isSome r.durations r.sizes r.flags r.offsets := flags_enc _ _ _ _ _ _ h.either

theorem first_and {r : ARun} (h : RunOk r) : (r.first.isSome && !r.flags) = r.first.isSome := by
  cases hf : r.first.isSome with
  | false => rfl
  | true => rw [h.either hf]; rfl

structure HasR (r : ARun) : Prop where
  place : has r.tr_flags 1 = r.place.isSome
  first : has r.tr_flags 4 = r.first.isSome
  durations : has r.tr_flags 0x100 = r.durations
  sizes : has r.tr_flags 0x200 = r.sizes
  flags : has r.tr_flags 0x400 = r.flags
  offsets : has r.tr_flags 0x800 = r.offsets

theorem hasR {r : ARun} (h : RunOk r) : HasR r := by
  obtain ⟨h1, h2, h3, h4, h5, h6, -⟩ := Traf.enc_has r.place.isSome r.first.isSome r.durations r.sizes r.flags r.offsets
  rw [← tr_flags_eq h] at h1 h2 h3 h4 h5 h6
  rw [first_and h] at h2
  exact ⟨h1, h2, h3, h4, h5, h6⟩

theorem flags_t : ∀ a b c d e f g : Bool,
    let n := bit a 1 + bit b 2 + bit c 8 + bit d 0x10 + bit e 0x20 + bit f 0x10000 + bit g 0x20000
    has n 1 = a ∧ has n 2 = b ∧ has n 8 = c ∧ has n 0x10 = d ∧ has n 0x20 = e ∧ has n 0x10000 = f ∧
      has n 0x20000 = g ∧ n < 16777216 := by decide +kernel

theorem opt_elim (o : Option Nat) (f : Nat → Bytes) : Traf.opt o.isSome (f (o.getD 0)) = may f o := by
  cases o <;> rfl

theorem opt_bool (b : Bool) (x : Bytes) : Traf.opt b x = if b then x else [] := rfl

theorem entry_eq {r : ARun} (h : RunOk r) (e : Entry) : Traf.entryBytes r.tr_flags e = r.entry e := by
  have hh := hasR h
  unfold Traf.entryBytes ARun.entry
  rw [hh.durations, hh.sizes, hh.flags, hh.offsets]
  simp only [opt_bool, List.append_assoc]

theorem run_bytes {r : ARun} (h : RunOk r) :
    fullBox Traf.typeTrun (toRun r).version (toRun r).flags (Traf.runPayload (toRun r)) = r.bytes := by
  have hh := hasR h
  unfold ARun.bytes Traf.runPayload toRun
  dsimp only
  rw [hh.place, hh.first, opt_elim]
  have e1 : Traf.opt r.place.isSome (be 4 (r.place.getD 0 % 2 ^ 32).toNat) =
      (match r.place with | none => [] | some o => be4i o) := by
    cases r.place <;> rfl
  have e2 : r.samples.flatMap (Traf.entryBytes r.tr_flags) = r.samples.flatMap r.entry := by
    congr 1
    exact funext fun e => entry_eq h e
  rw [e1, e2]
  simp only [List.append_assoc]
  rfl

theorem run_fits {r : ARun} (h : RunOk r) : Traf.RunFits (toRun r) := by
  refine ⟨h.version, ?_, h.some, ?_⟩
  · show (r.place.getD 0 % 2 ^ 32).toNat < 2 ^ 32
    omega
  · intro e he
    obtain ⟨h1, h2, h3, h4⟩ := h.samples e he
    exact ⟨h1, h2, h3, h4⟩

theorem box_child {n type : Nat} {payload : Bytes} {m : Traf.Member}
    (hp : ParsesAt (Traf.memberParse ⟨n, type, [], 0, 8⟩) 8 payload m) (hn : 8 + payload.length = n) (hs : n < 4294967296)
    (ht : type < 4294967296) (hu : type ≠ typeUuid) : Traf.Child m (box type payload) := by
  have hl : (box type payload).length = n := by
    simp only [box, List.length_append, be_length]; omega
  refine ⟨by omega, fun rest => ⟨⟨n, type, [], 0, 8⟩, ?_, hl.symm⟩⟩
  have := parseAtom_small hp hn.symm hs ht hu rest
  unfold box
  rw [hn]
  exact this

theorem first_lt {r : ARun} (h : RunOk r) : r.first.getD 0 < 4294967296 := by
  cases hf : r.first with
  | none => exact Nat.zero_lt_succ _
  | some v => exact h.first v hf

theorem run_child {r : ARun} (h : RunOk r) (hn : r.bytes.length < 2 ^ 32) :
    Traf.Child (.trun (seen (toRun r))) r.bytes := by
  rw [← run_bytes h] at hn ⊢
  have hl : 8 + (be 1 (toRun r).version ++ be 3 (toRun r).flags ++ Traf.runPayload (toRun r)).length < 4294967296 := by
    unfold fullBox box at hn
    simp only [List.length_append, be_length] at hn ⊢
    omega
  generalize hk : 8 + (be 1 (toRun r).version ++ be 3 (toRun r).flags ++ Traf.runPayload (toRun r)).length = k at hl
  refine box_child (n := k) ?_ hk hl (by decide) (by decide)
  apply Parses.at
  have e : Traf.memberParse ⟨k, Traf.typeTrun, [], 0, 8⟩ =
      Traf.Member.trun <$> Traf.runParse ⟨k, Traf.typeTrun, [], 0, 8⟩ := by
    unfold Traf.memberParse; simp [Traf.typeTrun, Traf.typeTfhd, Traf.typeTfdt]
  rw [e]
  exact (Traf.parses_run ⟨_, _, _, _, _, _, tr_flags_eq h⟩ (run_fits h) (first_lt h) h.count _).map _

/-! ## The header -/

structure HasT (t : ATraf) : Prop where
  base : has t.tf_flags 1 = t.base.isSome
  desc : has t.tf_flags 2 = t.desc.isSome
  duration : has t.tf_flags 8 = t.duration.isSome
  size : has t.tf_flags 0x10 = t.size.isSome
  flags : has t.tf_flags 0x20 = t.flags.isSome
  empty : has t.tf_flags 0x10000 = t.empty
  moof : has t.tf_flags 0x20000 = t.fromMoof
  lt : t.tf_flags < 16777216

theorem hasT (t : ATraf) : HasT t := by
  obtain ⟨h1, h2, h3, h4, h5, h6, h7, h8⟩ := flags_t t.base.isSome t.desc.isSome t.duration.isSome t.size.isSome
    t.flags.isSome t.empty t.fromMoof
  exact ⟨h1, h2, h3, h4, h5, h6, h7, h8⟩

theorem getD_lt {b : Nat} {o : Option Nat} (h : fits b o) (hb : 0 < b) : o.getD 0 < b := by
  cases ho : o with
  | none => exact hb
  | some v => exact h v ho

theorem header_bytes (t : ATraf) :
    fullBox Traf.typeTfhd (toTfhd t).version (toTfhd t).flags (Traf.tfhdPayload (toTfhd t)) = t.header := by
  have hh := hasT t
  unfold ATraf.header Traf.tfhdPayload toTfhd
  dsimp only
  rw [hh.base, hh.desc, hh.duration, hh.size, hh.flags]
  rw [opt_elim, opt_elim, opt_elim, opt_elim, opt_elim]
  simp only [List.append_assoc]
  rfl

theorem header_child {trex : Nat → Option Trex} {t : ATraf} (h : TrafOk trex t) :
    Traf.Child (.tfhd (hseen (toTfhd t))) t.header := by
  rw [← header_bytes t]
  refine (Traf.tfhd_child ⟨Nat.zero_lt_succ _, (hasT t).lt, h.id.2, getD_lt h.base (Nat.two_pow_pos 64),
    getD_lt h.desc (Nat.two_pow_pos 32), getD_lt h.duration (Nat.two_pow_pos 32),
    getD_lt h.size (Nat.two_pow_pos 32), getD_lt h.flags (Nat.two_pow_pos 32)⟩).2

theorem time_child {w : Bool} {v : Nat} (h : v < if w then 2 ^ 64 else 2 ^ 32) :
    ∃ d, toTfdt (some (w, v)) = some d ∧ d.time = v ∧ Traf.Child (.tfdt d) (timeBox (some (w, v))) := by
  cases w with
  | true => exact ⟨⟨1, 0, v⟩, rfl, rfl, (Traf.tfdt_child (d := ⟨1, 0, v⟩) ⟨Nat.two_pow_pos 24, .inr ⟨rfl, by simpa using h⟩⟩).2.2.2⟩
  | false => exact ⟨⟨0, 0, v⟩, rfl, rfl, (Traf.tfdt_child (d := ⟨0, 0, v⟩) ⟨Nat.two_pow_pos 24, .inl ⟨rfl, by simpa using h⟩⟩).2.2.2⟩

/-! ## A track fragment -/

def kids (t : ATraf) : List (Traf.Member × Bytes) :=
  (.tfhd (hseen (toTfhd t)), t.header) ::
    ((match toTfdt t.time with | none => [] | some d => [(.tfdt d, timeBox t.time)]) ++
      t.runs.map fun r => (.trun (seen (toRun r)), r.bytes))

def back (t : ATraf) : RTraf := ⟨some (hseen (toTfhd t)), toTfdt t.time, t.runs.map fun r => seen (toRun r)⟩

theorem kids_bytes (t : ATraf) : (kids t).flatMap (·.2) = t.header ++ timeBox t.time ++ t.runs.flatMap ARun.bytes := by
  unfold kids
  rw [List.flatMap_cons, List.flatMap_append, List.flatMap_map, List.append_assoc]
  congr 2
  obtain ⟨_, _, _, _, _, _, _, _, time, _⟩ := t
  match time with
  | none => rfl
  | some (true, v) => simp [toTfdt]
  | some (false, v) => simp [toTfdt]

theorem kids_back (t : ATraf) : ((kids t).map (·.1)).foldl Traf.addAtom ⟨none, none, []⟩ = back t := by
  have e : (t.runs.map fun r => (Traf.Member.trun (seen (toRun r)), r.bytes)).map (·.1) =
      (t.runs.map fun r => seen (toRun r)).map Traf.Member.trun := by simp
  unfold kids back
  simp only [List.map_cons, List.map_append, List.foldl_cons, List.foldl_append, e, Traf.addRuns]
  cases toTfdt t.time <;> simp [Traf.addAtom]

theorem kids_child {trex : Nat → Option Trex} {t : ATraf} (h : TrafOk trex t) (hn : t.bytes.length < 2 ^ 32) :
    ∀ c ∈ kids t, Traf.Child c.1 c.2 := by
  intro c hc
  unfold kids at hc
  rcases List.mem_cons.1 hc with rfl | hc
  · exact header_child h
  · rcases List.mem_append.1 hc with hc | hc
    · cases ht : t.time with
      | none => rw [ht] at hc; simp [toTfdt] at hc
      | some wv =>
        obtain ⟨w, v⟩ := wv
        obtain ⟨d, e1, -, e3⟩ := time_child (h.time w v ht)
        rw [ht, e1] at hc
        simp only [List.mem_singleton] at hc
        subst hc
        exact e3
    · obtain ⟨r, hr, rfl⟩ := List.mem_map.1 hc
      refine run_child (h.runs r hr) ?_
      obtain ⟨l1, l2, e⟩ := List.append_of_mem hr
      unfold ATraf.bytes box at hn
      rw [e] at hn
      simp only [List.length_append, List.flatMap_append, List.flatMap_cons] at hn
      omega

theorem parses_traf {trex : Nat → Option Trex} {t : ATraf} (h : TrafOk trex t) (hb : t.bytes.length < 2 ^ 32)
    (n : Nat) (hn : 8 + (t.header ++ timeBox t.time ++ t.runs.flatMap ARun.bytes).length = n) (hs : n < 4294967296) :
    ParsesAt (FragFile.memberParse ⟨n, Traf.typeTraf, [], 0, 8⟩) 8
      (t.header ++ timeBox t.time ++ t.runs.flatMap ARun.bytes) (.traf (back t)) := by
  have e : FragFile.memberParse ⟨n, Traf.typeTraf, [], 0, 8⟩ =
      FragFile.Member.traf <$> Traf.parse ⟨n, Traf.typeTraf, [], 0, 8⟩ := by
    unfold FragFile.memberParse; simp [Traf.typeTraf, FragSeq.typeMfhd]
  intro r
  rw [e]
  refine Traf.mapAt _ ?_
  unfold Traf.parse
  rw [← kids_bytes] at hn ⊢
  have hk := Traf.length_le_flatMap (g := fun c : Traf.Member × Bytes => c.2) fun c hc => (kids_child h hb c hc).1
  rw [Traf.members_children n hs r (kids t) _ _ 8 (kids_child h hb) (by simp only [List.length_append]; omega) hn,
    kids_back, bind_ok]
  dsimp only
  rw [if_neg (by simp), hn]

theorem traf_child {trex : Nat → Option Trex} {t : ATraf} (h : TrafOk trex t) (hb : t.bytes.length < 2 ^ 32) :
    FragFile.MChild (.traf (back t)) t.bytes := by
  have hl : t.bytes.length = 8 + (t.header ++ timeBox t.time ++ t.runs.flatMap ARun.bytes).length := by
    unfold ATraf.bytes box
    simp only [List.length_append, be_length]
  generalize hn : 8 + (t.header ++ timeBox t.time ++ t.runs.flatMap ARun.bytes).length = n at hl
  refine ⟨by omega, fun rest => ⟨⟨n, Traf.typeTraf, [], 0, 8⟩, ?_, hl.symm⟩⟩
  have := parseAtom_small (parses_traf h hb n hn (by omega)) hn.symm (by omega) (by decide) (by decide) rest
  unfold ATraf.bytes box
  rw [hn]
  exact this

/-! ## The fragment box -/

def moofKids (seq : Nat) (ts : List ATraf) : List (FragFile.Member × Bytes) :=
  (.mfhd ⟨0, 0, seq⟩, FragSeq.mfhdLayout ⟨0, 0, seq⟩) :: ts.map fun t => (.traf (back t), t.bytes)

theorem moof_bytes (seq : Nat) (ts : List ATraf) :
    moofBytes seq ts = box FragFile.typeMoof ((moofKids seq ts).flatMap (·.2)) := by
  unfold moofBytes moofKids
  rw [List.flatMap_cons, List.flatMap_map]
  rfl

theorem parse_moof {trex : Nat → Option Trex} {ts : List ATraf} (h : ∀ t ∈ ts, TrafOk trex t) {seq : Nat}
    (hseq : seq < 2 ^ 32) (hl : (moofBytes seq ts).length < 2 ^ 32) (rest : Bytes) :
    ∃ hd, parseAtom FragFile.parse (moofBytes seq ts ++ rest) =
      .ok (⟨some ⟨0, 0, seq⟩, ts.map fun t => some (back t)⟩, hd, rest) ∧ hd.size = (moofBytes seq ts).length := by
  have hch : ∀ c ∈ moofKids seq ts, FragFile.MChild c.1 c.2 := by
    intro c hc
    rcases List.mem_cons.1 hc with rfl | hc
    · exact FragFile.mfhd_child hseq
    · obtain ⟨t, ht, rfl⟩ := List.mem_map.1 hc
      refine traf_child (h t ht) ?_
      obtain ⟨l1, l2, e⟩ := List.append_of_mem ht
      unfold moofBytes box at hl
      rw [e] at hl
      simp only [List.length_append, List.flatMap_append, List.flatMap_cons] at hl
      omega
  have hk := Traf.length_le_flatMap (g := fun c : FragFile.Member × Bytes => c.2) fun c hc => (hch c hc).1
  rw [moof_bytes] at hl ⊢
  have hbl : (box FragFile.typeMoof ((moofKids seq ts).flatMap (·.2))).length =
      8 + ((moofKids seq ts).flatMap (·.2)).length := by
    simp only [box, List.length_append, be_length]
  generalize hn : 8 + ((moofKids seq ts).flatMap (·.2)).length = n at hbl
  have hp : ParsesAt (FragFile.parse ⟨n, FragFile.typeMoof, [], 0, 8⟩) 8 ((moofKids seq ts).flatMap (·.2))
      ⟨some ⟨0, 0, seq⟩, ts.map fun t => some (back t)⟩ := by
    intro r
    unfold FragFile.parse
    rw [FragFile.members_children n (by omega) r (moofKids seq ts) _ _ 8 hch (by simp only [List.length_append]; omega) hn,
      bind_ok]
    dsimp only
    rw [if_neg (by simp), hn]
    congr 2
    have e : ((moofKids seq ts).map (·.1)) = FragFile.Member.mfhd ⟨0, 0, seq⟩ :: (ts.map back).map FragFile.Member.traf := by
      simp [moofKids]
    rw [e, List.foldl_cons, FragFile.addTrafs]
    simp [FragFile.addAtom]
  refine ⟨⟨n, FragFile.typeMoof, [], 0, 8⟩, ?_, hbl.symm⟩
  have := parseAtom_small hp hn.symm (by omega) (by decide) (by decide) rest
  unfold box
  rw [hn]
  exact this

/-! ## What the code makes of it -/

theorem fill_eq (x : Trex) (moof prev : Nat) (t : ATraf) : Traf.fill x moof prev (hseen (toTfhd t)) =
    ⟨0, t.tf_flags, t.id, match t.base with | some b => b | none => if t.fromMoof then moof else prev,
      t.desc.getD x.descIndex, t.duration.getD x.duration, t.size.getD x.size, t.flags.getD x.sampleFlags⟩ := by
  have hh := hasT t
  unfold Traf.fill hseen toTfhd
  dsimp only
  rw [hh.base, hh.desc, hh.duration, hh.size, hh.flags, hh.moof]
  congr 1
  · cases t.base <;> rfl
  · cases t.desc <;> rfl
  · cases t.duration <;> rfl
  · cases t.size <;> rfl
  · cases t.flags <;> rfl

/-- The base that the code takes. -/
def codeBase (moof prev : Nat) (t : ATraf) : Nat :=
  match t.base with
  | some b => b
  | none => if t.fromMoof then moof else prev

/-- The place of a run in the code: without an offset it is the base. -/
def codePlace (base : Nat) (r : ARun) : Nat := u64i (base + r.place.getD 0)

theorem s32_place {r : ARun} (h : RunOk r) : s32 (seen (toRun r)).dataOffset = r.place.getD 0 := by
  have hh := hasR h
  unfold seen toRun
  dsimp only
  rw [hh.place]
  cases hp : r.place with
  | none => rfl
  | some o =>
    obtain ⟨h1, h2⟩ := h.place o hp
    show s32 (o % 2 ^ 32).toNat = o
    unfold s32
    split <;> omega

theorem resolve_eq {x : Trex} {t : ATraf} {r : ARun} (h : RunOk r) {g : Tfhd} (hd : g.duration = t.duration.getD x.duration)
    (hs : g.size = t.size.getD x.size) (hf : g.sampleFlags = t.flags.getD x.sampleFlags) (first : Bool) (e : Entry) :
    Traf.resolve g (seen (toRun r)) first (Traf.mask r.tr_flags e) = sampleOf x t r first e := by
  have hh := hasR h
  have ef : (seen (toRun r)).flags = r.tr_flags := rfl
  have e4 : (seen (toRun r)).firstFlags = if has r.tr_flags 4 then r.first.getD 0 else 0 := rfl
  unfold Traf.resolve sampleOf Traf.mask
  rw [ef, e4, hh.durations, hh.sizes, hh.flags, hh.offsets, hh.first, hd, hs, hf]
  congr 1
  · cases r.durations <;> rfl
  · cases r.sizes <;> rfl
  · cases first <;> cases r.first <;> cases r.flags <;> simp

theorem merge_eq {x : Trex} {t : ATraf} {g : Tfhd} (hd : g.duration = t.duration.getD x.duration)
    (hs : g.size = t.size.getD x.size) (hf : g.sampleFlags = t.flags.getD x.sampleFlags) :
    ∀ rs : List ARun, (∀ r ∈ rs, RunOk r) →
    Traf.mergeRuns g (rs.map fun r => seen (toRun r)) = .ok (rs.map fun r => (codePlace g.base r, samplesOf x t r)) := by
  intro rs
  induction rs with
  | nil => intro _; rfl
  | cons r rs ih =>
    intro h
    have hr := h r (by simp)
    rw [List.map_cons, Traf.mergeRuns, ih fun y hy => h y (by simp [hy])]
    have hm : Traf.mergeRun g (seen (toRun r)) = .ok (codePlace g.base r, samplesOf x t r) := by
      have hp : Traf.place g (seen (toRun r)) = codePlace g.base r := by
        unfold Traf.place codePlace
        rw [s32_place hr]
      have hen : (seen (toRun r)).entries = r.samples.map (Traf.mask r.tr_flags) := rfl
      unfold Traf.mergeRun samplesOf
      rw [hen, hp]
      cases hsm : r.samples with
      | nil => exact absurd hsm hr.some
      | cons e es =>
        rw [List.map_cons]
        dsimp only
        rw [resolve_eq hr hd hs hf, List.map_map]
        congr 3
        apply List.map_congr_left
        intro a _
        exact resolve_eq hr hd hs hf false a
    rw [hm]
    rfl

/-- What the code finds. -/
def found (trex : Nat → Option Trex) (moof : Nat) : Nat → List ATraf → List FragFile.Found
  | _, [] => []
  | prev, t :: ts =>
    ⟨t.id, t.time.map (·.2), t.runs.map fun r =>
        (codePlace (codeBase moof prev t) r, samplesOf ((trex t.id).getD ⟨0, 0, 0, 0⟩) t r)⟩ ::
      found trex moof (FragFile.dataEnd (Traf.fill ((trex t.id).getD ⟨0, 0, 0, 0⟩) moof prev (hseen (toTfhd t)))
        (t.runs.map fun r => seen (toRun r))) ts

theorem time_back (t : Option (Bool × Nat)) : (toTfdt t).map Tfdt.time = t.map (·.2) := by
  match t with
  | none => rfl
  | some (true, v) => rfl
  | some (false, v) => rfl

theorem gather_eq (trex : Nat → Option Trex) (moof : Nat) : ∀ (ts : List ATraf) (prev : Nat),
    (∀ t ∈ ts, TrafOk trex t) →
    FragFile.gather trex moof (ts.map fun t => some (back t)) prev = .ok (found trex moof prev ts) := by
  intro ts
  induction ts with
  | nil => intro prev _; rfl
  | cons t ts ih =>
    intro prev h
    have ht := h t (by simp)
    rw [List.map_cons, FragFile.gather, found]
    have e0 : (back t).tfhd = some (hseen (toTfhd t)) := rfl
    have e1 : (back t).runs = t.runs.map fun r => seen (toRun r) := rfl
    have e2 : (back t).tfdt = toTfdt t.time := rfl
    have e3 : (hseen (toTfhd t)).trackId = t.id := rfl
    have e4 : (hseen (toTfhd t)).flags = t.tf_flags := rfl
    rw [e0, e1, e2]
    dsimp only
    rw [e3, e4, if_neg (by have := ht.id.1; omega)]
    obtain ⟨x, hx⟩ := Option.isSome_iff_exists.1 ht.known
    rw [hx, (hasT t).empty]
    dsimp only [Option.getD_some]
    have hm : (if t.empty = true then Res.ok [] else Traf.mergeRuns (Traf.fill x moof prev (hseen (toTfhd t)))
        (t.runs.map fun r => seen (toRun r))) = .ok (t.runs.map fun r => (codePlace (codeBase moof prev t) r, samplesOf x t r)) := by
      by_cases he : t.empty = true
      · rw [if_pos he, ht.empty he]; rfl
      · rw [if_neg he, merge_eq (x := x) (t := t) (by rw [fill_eq]) (by rw [fill_eq]) (by rw [fill_eq]) t.runs ht.runs, fill_eq]
        rfl
    rw [hm, bind_ok, ih _ fun y hy => h y (by simp [hy]), bind_ok, time_back]

theorem dataSize_eq (x : Trex) (t : ATraf) (r : ARun) : dataSize x t r =
    (r.samples.map fun e => if r.sizes then e.size else t.size.getD x.size).sum := by
  unfold dataSize samplesOf
  cases r.samples with
  | nil => rfl
  | cons e es =>
    simp only [List.map_cons, List.map_map, List.sum_cons]
    rfl

theorem foldl_size (f : Entry → Nat) : ∀ (es : List Entry) (n : Nat), n < 4294967296 →
    es.foldl (fun n e => w32(n + f e)) n = (n + (es.map f).sum) % 4294967296 := by
  intro es
  induction es with
  | nil => intro n h; simp; omega
  | cons e es ih =>
    intro n h
    rw [List.foldl_cons, ih _ (Nat.mod_lt _ (by decide))]
    simp only [List.map_cons, List.sum_cons]
    omega

theorem total_eq {x : Trex} {t : ATraf} {r : ARun} (h : RunOk r) {g : Tfhd} (hs : g.size = t.size.getD x.size)
    {n : Nat} (hn : n < 4294967296) :
    FragFile.runTotal g (seen (toRun r)) n = (n + dataSize x t r) % 4294967296 := by
  have hh := hasR h
  have hen : (seen (toRun r)).entries = r.samples.map (Traf.mask r.tr_flags) := rfl
  have ef : (seen (toRun r)).flags = r.tr_flags := rfl
  unfold FragFile.runTotal
  rw [dataSize_eq, hen, ef, hh.sizes, hs]
  cases hz : r.sizes with
  | true =>
    rw [if_pos rfl, List.foldl_map, foldl_size (fun e => (Traf.mask r.tr_flags e).size) _ _ hn]
    have e : (fun e => (Traf.mask r.tr_flags e).size) = fun e : Entry => if true = true then e.size else t.size.getD x.size := by
      funext e
      unfold Traf.mask
      dsimp only
      rw [hh.sizes, hz]
      rfl
    rw [e]
  | false =>
    rw [if_neg (by decide), List.length_map]
    have e : (r.samples.map fun e => if false = true then e.size else t.size.getD x.size).sum =
        t.size.getD x.size * r.samples.length := by
      generalize r.samples = l
      induction l with
      | nil => simp
      | cons a l ih =>
        rw [List.map_cons, List.sum_cons, ih, List.length_cons, Nat.mul_succ]
        simp
        omega
    rw [e]
    generalize t.size.getD x.size * r.samples.length = k
    omega

/-- The end of a track fragment with at most one run, as the code computes it. -/
theorem dataEnd_eq {x : Trex} {t : ATraf} {g : Tfhd} (hr : ∀ r ∈ t.runs, RunOk r) (hl : t.runs.length ≤ 1)
    (hs : g.size = t.size.getD x.size) (h0 : 0 ≤ endFrom x t g.base g.base t.runs)
    (h1 : endFrom x t g.base g.base t.runs < 2 ^ 32)
    (hp : ∀ r ∈ t.runs, ∀ o, r.place = some o → 0 ≤ (g.base : Int) + o) :
    (FragFile.dataEnd g (t.runs.map fun r => seen (toRun r)) : Int) = endFrom x t g.base g.base t.runs := by
  match hm : t.runs with
  | [] =>
    rw [hm] at h0 h1
    simp only [endFrom] at h0 h1 ⊢
    unfold FragFile.dataEnd
    simp only [List.map_nil, FragFile.endLoop]
    omega
  | [r] =>
    rw [hm] at h0 h1 hr hp
    have hr := hr r (by simp)
    have hp := hp r (by simp)
    simp only [endFrom] at h0 h1 ⊢
    unfold FragFile.dataEnd
    simp only [List.map_cons, List.map_nil, FragFile.endLoop]
    have ef : (seen (toRun r)).flags = r.tr_flags := rfl
    rw [total_eq (x := x) (t := t) hr hs (Nat.zero_lt_succ _), ef, (hasR hr).place]
    unfold Traf.place
    rw [s32_place hr]
    cases hpl : r.place with
    | none =>
      rw [hpl] at h0 h1
      dsimp only at h0 h1
      simp only [Option.isSome_none, Bool.false_eq_true, if_false]
      omega
    | some o =>
      rw [hpl] at h0 h1
      dsimp only at h0 h1
      have := hp o hpl
      simp only [Option.isSome_some, if_true, Option.getD_some]
      unfold u64i
      omega
  | _ :: _ :: _ => rw [hm] at hl; simp at hl

end Verif.Conform
