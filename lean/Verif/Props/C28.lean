import Verif.Spec.Traf
import Verif.Lemmas.Auto

/-!
# C28: fragment defaults never change a sample's properties
-/

namespace Verif.Traf

/-! ## The flags of a run -/

/-- The bits of a run: data offset, flags of the first sample, duration, size, flags, composition offset. -/
def enc (a b d s f c : Bool) : Nat :=
  (if a then 1 else 0) ||| (if b && !f then 4 else 0) ||| (if d then 0x100 else 0) |||
    (if s then 0x200 else 0) ||| (if f then 0x400 else 0) ||| (if c then 0x800 else 0)

theorem enc_has : ∀ a b d s f c : Bool,
    has (enc a b d s f c) 1 = a ∧ has (enc a b d s f c) 4 = (b && !f) ∧ has (enc a b d s f c) 0x100 = d ∧
    has (enc a b d s f c) 0x200 = s ∧ has (enc a b d s f c) 0x400 = f ∧ has (enc a b d s f c) 0x800 = c ∧
    enc a b d s f c < 16777216 ∧ (enc a b d s f c &&& 0xF00 = 0xF00 ↔ d ∧ s ∧ f ∧ c) := by decide

theorem enc_count : ∀ a b d s f c : Bool,
    bitcount (enc a b d s f c &&& 0xFF00) = (if d then 1 else 0) + (if s then 1 else 0) +
      (if f then 1 else 0) + (if c then 1 else 0) ∧
    bitcount (enc a b d s f c &&& 0xFF) = (if a then 1 else 0) + (if (b && !f) then 1 else 0) := by
  decide +kernel

theorem enc_step : ∀ a b d s f c x y z w : Bool,
    (let flags := if x then enc a b d s f c ||| 0x100 else enc a b d s f c
     let flags := if y then flags ||| 0x200 else flags
     let flags := if z then (flags &&& 0xFFFFFFFB) ||| 0x400 else flags
     if w then flags ||| 0x800 else flags) = enc a b (d || x) (s || y) (f || z) (c || w) := by
  decide +kernel

theorem flagStep_enc (h : Tfhd) (first : Bool) (e : Entry) (a b d s f c : Bool) :
    flagStep h first (enc a b d s f c) e = enc a b (d || e.duration != h.duration)
      (s || e.size != h.size) (f || (!first && e.flags != h.sampleFlags)) (c || e.offset != 0) := by
  rw [← enc_step]
  simp [flagStep]

theorem flagLoop_enc (h : Tfhd) : ∀ (es : List Entry) (a b d s f c : Bool),
    flagLoop h false (enc a b d s f c) es = enc a b (d || es.any (·.duration != h.duration))
      (s || es.any (·.size != h.size)) (f || es.any (·.flags != h.sampleFlags))
      (c || es.any (·.offset != 0)) := by
  intro es
  induction es with
  | nil => intros; simp [flagLoop]
  | cons e es ih =>
    intro a b d s f c
    simp only [flagLoop, flagStep_enc, List.any_cons, ← Bool.or_assoc, Bool.not_false, Bool.true_and]
    by_cases hx : enc a b (d || e.duration != h.duration) (s || e.size != h.size)
        (f || e.flags != h.sampleFlags) (c || e.offset != 0) &&& 0xF00 = 0xF00
    · rw [if_pos hx]
      obtain ⟨h1, h2, h3, h4⟩ := (enc_has _ _ _ _ _ _).2.2.2.2.2.2.2.1 hx
      rw [h1, h2, h3, h4]
      simp
    · rw [if_neg hx, ih]

/-- The flags that `setFlags` computes for a run. -/
def bits (h : Tfhd) (r : Run) : Nat :=
  enc (r.dataOffset != 0) (r.entries.head?.any (·.flags != h.sampleFlags))
    (r.entries.any (·.duration != h.duration)) (r.entries.any (·.size != h.size))
    (r.entries.tail.any (·.flags != h.sampleFlags)) (r.entries.any (·.offset != 0))

theorem enc_start : ∀ x y : Bool,
    (let flags := if x then 1 else 0
     if y then flags ||| 4 else flags) = enc x y false false false false := by decide

/-- A run after `setFlags`. -/
def ready (h : Tfhd) (r : Run) : Run :=
  { r with firstFlags := (r.entries.head?.map (·.flags)).getD 0, flags := bits h r }

theorem setFlags_eq (h : Tfhd) (r : Run) (hr : r.entries ≠ []) : setFlags h r = .ok (ready h r) := by
  obtain ⟨v, f, o, ff, es⟩ := r
  cases es with
  | nil => exact absurd rfl hr
  | cons e es =>
    have hs : (if e.flags ≠ h.sampleFlags then (if o ≠ 0 then 1 else 0) ||| 4 else if o ≠ 0 then 1 else 0) =
        enc (o != 0) (e.flags != h.sampleFlags) false false false false := by
      rw [← enc_start]; simp
    simp only [setFlags, ready, bits]
    rw [hs]
    simp only [flagLoop, flagStep_enc]
    by_cases hx : enc (o != 0) (e.flags != h.sampleFlags) (false || e.duration != h.duration)
        (false || e.size != h.size) (false || (!true && e.flags != h.sampleFlags))
        (false || e.offset != 0) &&& 0xF00 = 0xF00
    · have := ((enc_has _ _ _ _ _ _).2.2.2.2.2.2.2.1 hx).2.2.1
      simp at this
    · rw [if_neg hx, flagLoop_enc]
      simp

theorem setAllFlags_eq (h : Tfhd) : ∀ rs : List Run, (∀ r ∈ rs, r.entries ≠ []) →
    setAllFlags h rs = .ok (rs.map (ready h)) := by
  intro rs
  induction rs with
  | nil => intro _; rfl
  | cons r rs ih =>
    intro hr
    rw [setAllFlags, setFlags_eq h r (hr r (by simp)), Res.ok_bind, ih fun x hx => hr x (by simp [hx]),
      Res.ok_bind]
    rfl

/-! ## The flags of the header -/

/-- The bits of the header. -/
def henc (i d s f : Bool) : Nat :=
  1 ||| (if i then 2 else 0) ||| (if d then 8 else 0) ||| (if s then 0x10 else 0) ||| (if f then 0x20 else 0)

theorem henc_has : ∀ i d s f : Bool, has (henc i d s f) 1 = true ∧ has (henc i d s f) 2 = i ∧
    has (henc i d s f) 8 = d ∧ has (henc i d s f) 0x10 = s ∧ has (henc i d s f) 0x20 = f ∧
    henc i d s f < 16777216 := by decide

theorem henc_step : ∀ i d s f : Bool,
    (let flags := if i then 1 ||| 2 else 1
     let flags := if d then flags ||| 8 else flags
     let flags := if s then flags ||| 0x10 else flags
     if f then flags ||| 0x20 else flags) = henc i d s f := by decide

theorem tfhdFlags_eq (x : Trex) (h : Tfhd) : tfhdFlags x h =
    henc (x.descIndex != h.descIndex) (x.duration != h.duration) (x.size != h.size)
      (x.sampleFlags != h.sampleFlags) := by
  rw [← henc_step]
  simp [tfhdFlags]

/-! ## The default values -/

/-- What `calculateDefaults` does not touch, and the range of what it does. -/
structure Keeps (h h' : Tfhd) : Prop where
  version : h'.version = h.version
  track : h'.trackId = h.trackId
  base : h'.base = h.base
  index : h'.descIndex = h.descIndex
  duration : h'.duration < 2 ^ 32
  size : h'.size < 2 ^ 32
  flags : h'.sampleFlags < 2 ^ 32

theorem calculateDefaults_keeps {h h' : Tfhd} {r : Run} (i : Nat) (hk : Keeps h h') (hr : RunFits r) :
    Keeps h (calculateDefaults i h' r) := by
  unfold calculateDefaults
  split
  · exact hk
  · rename_i e es he
    have hall := hr.entries
    rw [he] at hall
    have h0 := hall e (by simp)
    obtain ⟨h1, h2, h3, h4, h5, h6, h7⟩ := hk
    refine ⟨h1, h2, h3, h4, ?_, ?_, ?_⟩ <;> dsimp only <;> split
    · exact h0.duration
    · exact h5
    · exact h0.size
    · exact h6
    · cases hg : (e :: es)[i - 1]? with
      | none => exact h0.flags
      | some x => exact (hall x (List.mem_of_getElem? hg)).flags
    · exact h7

theorem fold_keeps {h : Tfhd} (i : Nat) : ∀ (rs : List Run) (h' : Tfhd), Keeps h h' → (∀ r ∈ rs, RunFits r) →
    Keeps h (rs.foldl (calculateDefaults i) h') := by
  intro rs
  induction rs with
  | nil => intro h' hk _; exact hk
  | cons r rs ih =>
    intro h' hk hr
    exact ih _ (calculateDefaults_keeps i hk (hr r (by simp))) fun x hx => hr x (by simp [hx])

theorem defaults_keeps (h : Tfhd) {rs : List Run} (hr : ∀ r ∈ rs, RunFits r) : Keeps h (defaults h rs) := by
  have h0 : Keeps h { h with duration := 0, size := 0, sampleFlags := 0 } :=
    ⟨rfl, rfl, rfl, rfl, Nat.two_pow_pos 32, Nat.two_pow_pos 32, Nat.two_pow_pos 32⟩
  unfold defaults
  dsimp only
  split
  · exact fold_keeps 1 rs _ (fold_keeps 2 rs _ h0 hr) hr
  · exact fold_keeps 2 rs _ h0 hr

/-! ## Bytes -/

def opt (c : Bool) (bs : Bytes) : Bytes := if c then bs else []

theorem opt_length (c : Bool) (n v : Nat) : (opt c (be n v)).length = if c then n else 0 := by
  unfold opt; split <;> simp

theorem emits_opt {w : W} {bs : Bytes} (c : Bool) (h : Emits w bs) :
    Emits (if c then w else W.skip) (opt c bs) := by
  unfold opt; split
  · exact h
  · exact emits_skip

theorem parses_optional {p : P Nat} {bs : Bytes} {v : Nat} (c : Bool) (h : Parses p bs v) :
    Parses (optional c p) (opt c bs) (if c then v else 0) := by
  unfold optional opt; split
  · exact h
  · exact parses_pure _

theorem parses_none (p : P Nat) {n : Nat} (h : n = 0) : Parses (P.repeat n p) [] [] := by
  subst h; exact parses_pure _

/-- `bs` is a box that is read as the member `m`. -/
def Child (m : Member) (bs : Bytes) : Prop :=
  8 ≤ bs.length ∧ ∀ rest, ∃ hd, parseAtom memberParse (bs ++ rest) = .ok (m, hd, rest) ∧ hd.size = bs.length

theorem full_child {size type version flags : Nat} {w : W} {payload : Bytes} {m : Member}
    (hser : EmitsFull w payload)
    (hparse : ParsesAt (memberParse ⟨size, type, [], 0, 8⟩) 8 (be 1 version ++ be 3 flags ++ payload) m)
    (hlen : size = 12 + payload.length) (hs : size < 4294967296) (ht : type < 4294967296)
    (hu : type ≠ typeUuid) :
    runW size (serFull size type version flags ;; w) = .ok (fullBox type version flags payload) ∧
      Child m (fullBox type version flags payload) := by
  refine ⟨(BoxRoundTrip.ofFull hser hparse hlen hs ht hu).write, by simp [fullBox, box]; omega,
    fun rest => ⟨⟨size, type, [], 0, 8⟩, ?_, by simp [fullBox, box]; omega⟩⟩
  have := parseAtom_small hparse (by simp; omega) hs ht hu rest
  have e : fullBox type version flags payload =
      (be 4 size ++ be 4 type) ++ (be 1 version ++ be 3 flags ++ payload) := by
    simp only [fullBox, box, List.length_append, be_length, List.append_assoc, hlen]
    rw [show 8 + (1 + (3 + payload.length)) = 12 + payload.length by omega]
  rw [e]
  exact this

theorem mapAt {α β : Type} {p : P α} {s s' : PS} {a : α} (f : α → β) (h : p s = .ok (a, s')) :
    (f <$> p) s = .ok (f a, s') := by
  show (p >>= fun x => pure (f x)) s = _
  rw [P.bind_apply, h]
  rfl

/-! ### Run -/

def entryBytes (f : Nat) (e : Entry) : Bytes :=
  opt (has f 0x100) (be 4 e.duration) ++ (opt (has f 0x200) (be 4 e.size) ++
    (opt (has f 0x400) (be 4 e.flags) ++ opt (has f 0x800) (be 4 e.offset)))

def runPayload (r : Run) : Bytes :=
  be 4 r.entries.length ++ (opt (has r.flags 1) (be 4 r.dataOffset) ++
    (opt (has r.flags 4) (be 4 r.firstFlags) ++ r.entries.flatMap (entryBytes r.flags)))

/-- An entry with the fields that are not written left at 0. -/
def mask (f : Nat) (e : Entry) : Entry :=
  ⟨if has f 0x100 then e.duration else 0, if has f 0x200 then e.size else 0,
    if has f 0x400 then e.flags else 0, if has f 0x800 then e.offset else 0⟩

/-- A run as it is read. -/
def seen (r : Run) : Run :=
  ⟨r.version, r.flags, if has r.flags 1 then r.dataOffset else 0, if has r.flags 4 then r.firstFlags else 0,
    r.entries.map (mask r.flags)⟩

/-- Flags that a run can have after `setFlags`. -/
def Flagged (f : Nat) : Prop := ∃ a b d s g c, f = enc a b d s g c

theorem entryBytes_length (f : Nat) (e : Entry) : (entryBytes f e).length =
    (if has f 0x100 then 4 else 0) + (if has f 0x200 then 4 else 0) + (if has f 0x400 then 4 else 0) +
      (if has f 0x800 then 4 else 0) := by
  simp only [entryBytes, List.length_append, opt_length]
  omega

theorem parses_entry {f : Nat} (hf : Flagged f) {e : Entry} (he : EntryFits e) :
    Parses (getEntry f) (entryBytes f e) (mask f e) := by
  unfold getEntry entryBytes mask
  refine (parses_optional _ (parses_get32' he.duration)).bind
    ((parses_optional _ (parses_get32' he.size)).bind
    ((parses_optional _ (parses_get32' he.flags)).bind
    ((parses_optional _ (parses_get32' he.offset)).bind_nil
    ((parses_none _ ?_).bind_nil (parses_pure _)))))
  obtain ⟨a, b, d, s, g, c, rfl⟩ := hf
  obtain ⟨-, -, h3, h4, h5, h6, -⟩ := enc_has a b d s g c
  rw [(enc_count a b d s g c).1, h3, h4, h5, h6]
  omega

theorem parses_run {r : Run} (hf : Flagged r.flags) (hr : RunFits r) (hff : r.firstFlags < 2 ^ 32)
    (hn : r.entries.length < 2 ^ 32) (hd : Hdr) :
    Parses (runParse hd) (be 1 r.version ++ be 3 r.flags ++ runPayload r) (seen r) := by
  have hlt : r.flags < 16777216 := by
    obtain ⟨a, b, d, s, g, c, h⟩ := hf
    rw [h]; exact (enc_has a b d s g c).2.2.2.2.2.2.1
  unfold runParse runPayload seen
  refine (parses_versionFlags hr.version hlt).bind ((parses_get32' hn).bind
    ((parses_optional _ (parses_get32' hr.place)).bind
    ((parses_optional _ (parses_get32' hff)).bind ?_)))
  refine Parses.bind (x := []) (parses_none _ ?_) ?_
  · obtain ⟨a, b, d, s, g, c, h⟩ := hf
    obtain ⟨h1, h2, -⟩ := enc_has a b d s g c
    simp only [h]
    rw [(enc_count a b d s g c).2, h1, h2]
    omega
  · exact (parses_repeat_map r.entries _ _ (fun e he => parses_entry hf (hr.entries e he)) rfl).bind_nil
      (parses_pure _)

theorem runPayload_length (r : Run) : (runPayload r).length =
    4 + (if has r.flags 1 then 4 else 0) + (if has r.flags 4 then 4 else 0) +
    ((if has r.flags 0x100 then 4 else 0) + (if has r.flags 0x200 then 4 else 0) +
      (if has r.flags 0x400 then 4 else 0) + (if has r.flags 0x800 then 4 else 0)) * r.entries.length := by
  simp only [runPayload, List.length_append, opt_length, be_length]
  rw [flatMap_length_const r.entries fun e _ => entryBytes_length r.flags e]
  omega

theorem runPayload_le (r : Run) : (runPayload r).length ≤ 12 + 16 * r.entries.length := by
  rw [runPayload_length]
  generalize hk : ((if has r.flags 0x100 then 4 else 0) + (if has r.flags 0x200 then 4 else 0) +
      (if has r.flags 0x400 then 4 else 0) + (if has r.flags 0x800 then 4 else 0)) = k
  have : k ≤ 16 := by rw [← hk]; split <;> split <;> split <;> split <;> omega
  have := Nat.mul_le_mul_right r.entries.length this
  split <;> split <;> omega

theorem runSize_eq {r : Run} (h : 24 + 16 * r.entries.length < 2 ^ 32) :
    runSize r = 12 + (runPayload r).length := by
  have := runPayload_le r
  rw [runPayload_length] at this ⊢
  unfold runSize
  rw [Nat.mod_eq_of_lt] <;> omega

theorem run_child {r : Run} (hf : Flagged r.flags) (hr : RunFits r) (hff : r.firstFlags < 2 ^ 32)
    (h : 24 + 16 * r.entries.length < 2 ^ 32) :
    runW (runSize r) (runSer r) = .ok (fullBox typeTrun r.version r.flags (runPayload r)) ∧
    Child (.trun (seen r)) (fullBox typeTrun r.version r.flags (runPayload r)) := by
  have hsz := runSize_eq h
  have hle := runPayload_le r
  refine full_child (size := runSize r) ?_ ?_ hsz (by omega) (by decide) (by decide)
  · refine (emits_put32 _).then ((emits_opt _ (emits_put32 _)).then ((emits_opt _ (emits_put32 _)).then
      (Emits.thenAssert (Emits.each _ fun e _ => ?_))))
    exact (emits_opt _ (emits_put32 _)).seq ((emits_opt _ (emits_put32 _)).seq
      ((emits_opt _ (emits_put32 _)).seq (emits_opt _ (emits_put32 _))))
  · apply Parses.at
    have e : memberParse ⟨runSize r, typeTrun, [], 0, 8⟩ =
      Member.trun <$> runParse ⟨runSize r, typeTrun, [], 0, 8⟩ := by
      unfold memberParse; simp [typeTrun, typeTfhd, typeTfdt]
    rw [e]
    exact (parses_run hf hr hff (by omega) _).map _

/-! ### Header -/

def tfhdPayload (h : Tfhd) : Bytes :=
  be 4 h.trackId ++ (opt (has h.flags 1) (be 8 h.base) ++ (opt (has h.flags 2) (be 4 h.descIndex) ++
    (opt (has h.flags 8) (be 4 h.duration) ++ (opt (has h.flags 0x10) (be 4 h.size) ++
      opt (has h.flags 0x20) (be 4 h.sampleFlags)))))

/-- A header as it is read. -/
def hseen (h : Tfhd) : Tfhd :=
  ⟨h.version, h.flags, h.trackId, if has h.flags 1 then h.base else 0, if has h.flags 2 then h.descIndex else 0,
    if has h.flags 8 then h.duration else 0, if has h.flags 0x10 then h.size else 0,
    if has h.flags 0x20 then h.sampleFlags else 0⟩

theorem tfhdPayload_length (h : Tfhd) : tfhdSize h = 12 + (tfhdPayload h).length ∧
    (tfhdPayload h).length ≤ 28 := by
  simp only [tfhdPayload, List.length_append, opt_length, be_length, tfhdSize]
  split <;> split <;> split <;> split <;> split <;> omega

structure TfhdFits (h : Tfhd) : Prop where
  version : h.version < 2 ^ 8
  bits : h.flags < 2 ^ 24
  track : h.trackId < 2 ^ 32
  base : h.base < 2 ^ 64
  index : h.descIndex < 2 ^ 32
  duration : h.duration < 2 ^ 32
  size : h.size < 2 ^ 32
  flags : h.sampleFlags < 2 ^ 32

theorem tfhd_child {h : Tfhd} (hh : TfhdFits h) :
    runW (tfhdSize h) (tfhdSer h) = .ok (fullBox typeTfhd h.version h.flags (tfhdPayload h)) ∧
    Child (.tfhd (hseen h)) (fullBox typeTfhd h.version h.flags (tfhdPayload h)) := by
  obtain ⟨hsz, hle⟩ := tfhdPayload_length h
  refine full_child (size := tfhdSize h) ?_ ?_ hsz (by omega) (by decide) (by decide)
  · exact (emits_put32 _).then ((emits_opt _ (emits_put64 _)).then ((emits_opt _ (emits_put32 _)).then
      ((emits_opt _ (emits_put32 _)).then ((emits_opt _ (emits_put32 _)).then
      (Emits.thenAssert (emits_opt _ (emits_put32 _)))))))
  · apply Parses.at
    have e : memberParse ⟨tfhdSize h, typeTfhd, [], 0, 8⟩ =
      Member.tfhd <$> tfhdParse ⟨tfhdSize h, typeTfhd, [], 0, 8⟩ := by
      unfold memberParse; simp
    rw [e]
    refine Parses.map _ ?_
    unfold tfhdParse tfhdPayload hseen
    exact (parses_versionFlags hh.version hh.bits).bind ((parses_get32' hh.track).bind
      ((parses_optional _ (parses_get64' hh.base)).bind
      ((parses_optional _ (parses_get32' hh.index)).bind
      ((parses_optional _ (parses_get32' hh.duration)).bind
      ((parses_optional _ (parses_get32' hh.size)).bind
      ((parses_optional _ (parses_get32' hh.flags)).bind_nil (parses_pure _)))))))

/-! ### Decode time -/

def tfdtPayload (d : Tfdt) : Bytes := if d.version = 1 then be 8 d.time else be 4 d.time

theorem tfdt_child {d : Tfdt} (hd : d.flags < 2 ^ 24 ∧
    (d.version = 0 ∧ d.time < 2 ^ 32 ∨ d.version = 1 ∧ d.time < 2 ^ 64)) :
    tfdtSize d = .ok (12 + (tfdtPayload d).length) ∧ (tfdtPayload d).length ≤ 8 ∧
    runW (12 + (tfdtPayload d).length) (tfdtSer (12 + (tfdtPayload d).length) d) =
      .ok (fullBox typeTfdt d.version d.flags (tfdtPayload d)) ∧
    Child (.tfdt d) (fullBox typeTfdt d.version d.flags (tfdtPayload d)) := by
  obtain ⟨v, f, t⟩ := d
  obtain ⟨hf, hd⟩ := hd
  dsimp only at hf hd
  have e : ∀ n, memberParse ⟨n, typeTfdt, [], 0, 8⟩ = Member.tfdt <$> tfdtParse ⟨n, typeTfdt, [], 0, 8⟩ := by
    intro n; unfold memberParse; simp [typeTfhd, typeTfdt]
  rcases hd with ⟨rfl, ht⟩ | ⟨rfl, ht⟩
  · refine ⟨by simp [tfdtSize, tfdtPayload], by simp [tfdtPayload], ?_⟩
    refine full_child (version := 0) (flags := f) ?_ ?_ rfl (by simp [tfdtPayload]) (by decide) (by decide)
    · simp only [tfdtPayload]
      exact (emits_put32 t).then emitsFull_assert
    · rw [e]
      have : ParsesAt (tfdtParse ⟨12 + (tfdtPayload ⟨0, f, t⟩).length, typeTfdt, [], 0, 8⟩) 8
          (be 1 0 ++ be 3 f ++ tfdtPayload ⟨0, f, t⟩) ⟨0, f, t⟩ := by
        unfold tfdtParse tfdtPayload
        refine ((parses_versionFlags (by decide) hf).at _).bind ?_
        refine ((parses_get32' ht).at _).bind_nil ?_
        refine parsesAt_bytesRead ?_
        rw [if_neg (by simp)]
        exact (parses_pure _).at _
      intro r
      have := this r
      show (Member.tfdt <$> tfdtParse _ : P Member) _ = _
      exact mapAt _ this
  · refine ⟨by simp [tfdtSize, tfdtPayload], by simp [tfdtPayload], ?_⟩
    refine full_child (version := 1) (flags := f) ?_ ?_ rfl (by simp [tfdtPayload]) (by decide) (by decide)
    · simp only [tfdtPayload]
      exact (emits_put64 t).then emitsFull_assert
    · rw [e]
      have : ParsesAt (tfdtParse ⟨12 + (tfdtPayload ⟨1, f, t⟩).length, typeTfdt, [], 0, 8⟩) 8
          (be 1 1 ++ be 3 f ++ tfdtPayload ⟨1, f, t⟩) ⟨1, f, t⟩ := by
        unfold tfdtParse tfdtPayload
        refine ((parses_versionFlags (by decide) hf).at _).bind ?_
        refine ((parses_get64' ht).at _).bind_nil ?_
        refine parsesAt_bytesRead ?_
        rw [if_neg (by simp)]
        exact (parses_pure _).at _
      intro r
      exact mapAt _ (this r)

/-! ### The members -/

theorem members_children (size : Nat) (hs : size < 4294967296) (rest : Bytes) :
    ∀ (cs : List (Member × Bytes)) (n : Nat) (t : RTraf) (k : Nat), (∀ c ∈ cs, Child c.1 c.2) →
      cs.length < n → k + (cs.flatMap (·.2)).length = size →
      members n size t ⟨cs.flatMap (·.2) ++ rest, k⟩ = .ok ((cs.map (·.1)).foldl addAtom t, ⟨rest, size⟩) := by
  intro cs
  induction cs with
  | nil =>
    intro n t k _ hn hk
    cases n with
    | zero => simp at hn
    | succ n =>
      simp only [List.flatMap_nil, List.length_nil, Nat.add_zero] at hk
      subst hk
      simp [members]
  | cons c cs ih =>
    intro n t k hc hn hk
    cases n with
    | zero => simp at hn
    | succ n =>
      obtain ⟨h8, h⟩ := hc c (by simp)
      simp only [List.flatMap_cons, List.length_append, List.length_cons, List.append_assoc] at hk hn ⊢
      obtain ⟨hd, hp, hz⟩ := h (cs.flatMap (·.2) ++ rest)
      simp only [members]
      rw [if_pos (by omega), hp]
      simp only
      rw [hz, Nat.mod_eq_of_lt (by omega),
        ih n _ _ (fun x hx => hc x (by simp [hx])) (by omega) (by omega)]
      simp

/-! ## Applying the defaults -/

/-- The header as it is written. -/
def head (t : Traf) : Tfhd :=
  { defaults t.tfhd t.runs with flags := tfhdFlags t.trex (defaults t.tfhd t.runs) }

theorem head_fits {t : Traf} (ht : Fits t) : TfhdFits (head t) := by
  obtain ⟨h1, h2, h3, h4, h5, h6, h7⟩ := defaults_keeps t.tfhd ht.runs
  unfold head
  refine ⟨?_, ?_, ?_, ?_, ?_, h5, h6, h7⟩ <;> dsimp only
  · rw [h1]; exact ht.version
  · rw [tfhdFlags_eq]; exact (henc_has _ _ _ _).2.2.2.2.2
  · rw [h2]; exact ht.track
  · rw [h3]; exact ht.base
  · rw [h4]; exact ht.index

/-- Filling in the defaults of the track gives back the header before its fields were left out. -/
theorem fill_head (t : Traf) (m p : Nat) :
    fill t.trex m p (hseen (head t)) = head t := by
  obtain ⟨h1, h2, h3, h4, h5, -⟩ := henc_has (t.trex.descIndex != (defaults t.tfhd t.runs).descIndex)
    (t.trex.duration != (defaults t.tfhd t.runs).duration) (t.trex.size != (defaults t.tfhd t.runs).size)
    (t.trex.sampleFlags != (defaults t.tfhd t.runs).sampleFlags)
  rw [← tfhdFlags_eq] at h1 h2 h3 h4 h5
  have pick : ∀ a b : Nat, (if (a != b) = true then (if (a != b) = true then b else 0) else a) = b := by
    intro a b
    by_cases h : a = b <;> simp [h]
  simp only [fill, hseen, head, h1, h2, h3, h4, h5, pick, if_true]

theorem bits_has (h : Tfhd) (r : Run) :
    has (bits h r) 1 = (r.dataOffset != 0) ∧
    has (bits h r) 4 = (r.entries.head?.any (·.flags != h.sampleFlags) && !r.entries.tail.any (·.flags != h.sampleFlags)) ∧
    has (bits h r) 0x100 = r.entries.any (·.duration != h.duration) ∧
    has (bits h r) 0x200 = r.entries.any (·.size != h.size) ∧
    has (bits h r) 0x400 = r.entries.tail.any (·.flags != h.sampleFlags) ∧
    has (bits h r) 0x800 = r.entries.any (·.offset != 0) := by
  obtain ⟨h1, h2, h3, h4, h5, h6, -⟩ := enc_has (r.dataOffset != 0)
    (r.entries.head?.any (·.flags != h.sampleFlags)) (r.entries.any (·.duration != h.duration))
    (r.entries.any (·.size != h.size)) (r.entries.tail.any (·.flags != h.sampleFlags))
    (r.entries.any (·.offset != 0))
  exact ⟨h1, h2, h3, h4, h5, h6⟩

/-- A field left out of every entry because all agree with the default. -/
theorem pick_all {g : Entry → Nat} {es : List Entry} {e : Entry} (he : e ∈ es) (x : Nat) (b : Bool)
    (hb : b = es.any (g · != x)) : (if b = true then (if b = true then g e else 0) else x) = g e := by
  cases b with
  | true => simp
  | false =>
    have := List.any_eq_false.1 hb.symm e he
    simp only [bne_iff_ne, ne_eq, Decidable.not_not] at this
    simp [this]

theorem resolve_eq {h : Tfhd} {r : Run} {e : Entry} {es : List Entry} (hr : r.entries = e :: es) :
    resolve h (seen (ready h r)) true (mask (bits h r) e) = e ∧
    ∀ x ∈ es, resolve h (seen (ready h r)) false (mask (bits h r) x) = x := by
  obtain ⟨h1, h2, h3, h4, h5, h6⟩ := bits_has h r
  rw [hr] at h2 h3 h4 h5 h6
  simp only [List.head?_cons, List.tail_cons, Option.any_some] at h2 h5
  have offset : ∀ x ∈ e :: es, (if has (bits h r) 0x800 = true then x.offset else 0) = x.offset := by
    intro x hx
    have := pick_all (g := Entry.offset) hx 0 _ h6
    cases hb : has (bits h r) 0x800 <;> simp only [hb] at this ⊢ <;> simpa using this
  constructor
  · obtain ⟨d, s, f, o⟩ := e
    simp only [resolve, seen, ready, mask, hr, List.head?_cons, Option.map_some, Option.getD_some, true_and]
    have e1 := pick_all (g := Entry.duration) (e := ⟨d, s, f, o⟩) (by simp) _ _ h3
    have e2 := pick_all (g := Entry.size) (e := ⟨d, s, f, o⟩) (by simp) _ _ h4
    have e3 := offset ⟨d, s, f, o⟩ (by simp)
    dsimp only at e1 e2 e3
    rw [e1, e2, e3]
    congr 1
    rw [h2, h5]
    by_cases hf : f = h.sampleFlags
    · cases es.any (·.flags != h.sampleFlags) <;> simp [hf]
    · cases es.any (·.flags != h.sampleFlags) <;> simp [hf]
  · intro x hx
    have hm : x ∈ e :: es := by simp [hx]
    have e1 := pick_all (g := Entry.duration) hm _ _ h3
    have e2 := pick_all (g := Entry.size) hm _ _ h4
    have e4 := pick_all (g := Entry.flags) hx _ _ h5
    have e3 := offset x hm
    obtain ⟨d, s, f, o⟩ := x
    simp only [resolve, seen, ready, mask, Bool.false_eq_true, false_and, if_false]
    dsimp only at e1 e2 e3 e4
    rw [e1, e2, e3, e4]

theorem mergeRun_eq {h : Tfhd} {r : Run} (hr : r.entries ≠ []) :
    mergeRun h (seen (ready h r)) = .ok (((h.base + s32 r.dataOffset) % 2 ^ 64).toNat, r.entries) := by
  cases he : r.entries with
  | nil => exact absurd he hr
  | cons e es =>
    obtain ⟨h1, h2⟩ := resolve_eq (h := h) he
    have hs : (seen (ready h r)).entries = mask (bits h r) e :: es.map (mask (bits h r)) := by
      simp [seen, ready, he]
    have hp : place h (seen (ready h r)) = ((h.base + s32 r.dataOffset) % 2 ^ 64).toNat := by
      have : (seen (ready h r)).dataOffset = r.dataOffset := by
        simp only [seen, ready, (bits_has h r).1]
        by_cases h0 : r.dataOffset = 0 <;> simp [h0]
      unfold place u64i
      rw [this]
      rfl
    unfold mergeRun
    rw [hs]
    simp only [hp, h1, List.map_map]
    congr 3
    conv => rhs; rw [← List.map_id es]
    exact List.map_congr_left fun x hx => h2 x hx

theorem mergeRuns_eq {h : Tfhd} : ∀ {rs : List Run}, (∀ r ∈ rs, r.entries ≠ []) →
    mergeRuns h (rs.map fun r => seen (ready h r)) =
      .ok (rs.map fun r => (((h.base + s32 r.dataOffset) % 2 ^ 64).toNat, r.entries)) := by
  intro rs
  induction rs with
  | nil => intro _; rfl
  | cons r rs ih =>
    intro hr
    rw [List.map_cons, mergeRuns, mergeRun_eq (hr r (by simp)), Res.ok_bind, ih fun x hx => hr x (by simp [hx]),
      Res.ok_bind]
    rfl

/-! ## The whole fragment -/

def runBox (r : Run) : Bytes := fullBox typeTrun r.version r.flags (runPayload r)
def tfhdBox (h : Tfhd) : Bytes := fullBox typeTfhd h.version h.flags (tfhdPayload h)
def tfdtBox (d : Tfdt) : Bytes := fullBox typeTfdt d.version d.flags (tfdtPayload d)

/-- The members of a written fragment. -/
def kids (t : Traf) : List (Member × Bytes) :=
  (.tfhd (hseen (head t)), tfhdBox (head t)) ::
    (match t.tfdt with | none => [] | some d => [(.tfdt d, tfdtBox d)]) ++
    t.runs.map fun r => (.trun (seen (ready (head t) r)), runBox (ready (head t) r))

theorem ready_head (t : Traf) (r : Run) : ready (defaults t.tfhd t.runs) r = ready (head t) r := rfl

theorem prepare_eq {t : Traf} (ht : Fits t) :
    prepare t = .ok { t with tfhd := head t, runs := t.runs.map (ready (head t)) } := by
  unfold prepare
  dsimp only
  rw [if_neg ht.some, setAllFlags_eq _ _ fun r hr => (ht.runs r hr).some, Res.ok_bind]
  rfl

theorem ready_flagged (h : Tfhd) (r : Run) : Flagged (ready h r).flags := ⟨_, _, _, _, _, _, rfl⟩

theorem ready_fits {h : Tfhd} {r : Run} (hr : RunFits r) :
    RunFits (ready h r) ∧ (ready h r).firstFlags < 2 ^ 32 := by
  refine ⟨⟨hr.version, hr.place, hr.some, hr.entries⟩, ?_⟩
  cases he : r.entries with
  | nil => exact absurd he hr.some
  | cons e es =>
    simp only [ready, he, List.head?_cons, Option.map_some, Option.getD_some]
    exact (hr.entries e (by simp [he])).flags

theorem sum_le {r : Run} : ∀ {rs : List Run}, r ∈ rs →
    24 + 16 * r.entries.length ≤ (rs.map fun r => 24 + 16 * r.entries.length).sum := by
  intro rs
  induction rs with
  | nil => intro h; simp at h
  | cons x rs ih =>
    intro h
    simp only [List.map_cons, List.sum_cons]
    rcases List.mem_cons.1 h with rfl | h
    · omega
    · have := ih h; omega

theorem ready_child {t : Traf} (ht : Fits t) {r : Run} (hr : r ∈ t.runs) :
    runW (runSize (ready (head t) r)) (runSer (ready (head t) r)) = .ok (runBox (ready (head t) r)) ∧
    Child (.trun (seen (ready (head t) r))) (runBox (ready (head t) r)) :=
  have h := ready_fits (h := head t) (ht.runs r hr)
  run_child (ready_flagged _ _) h.1 h.2 (by
    have := sum_le hr
    have := ht.small
    simp only [ready]
    omega)

theorem kids_child {t : Traf} (ht : Fits t) : ∀ c ∈ kids t, Child c.1 c.2 := by
  intro c hc
  simp only [kids, List.cons_append, List.mem_cons, List.mem_append, List.mem_map] at hc
  rcases hc with rfl | hc | ⟨r, hr, rfl⟩
  · exact (tfhd_child (head_fits ht)).2
  · cases hd : t.tfdt with
    | none => simp [hd] at hc
    | some d =>
      simp only [hd, List.mem_singleton] at hc
      subst hc
      exact (tfdt_child (ht.time d hd)).2.2.2
  · exact (ready_child ht hr).2

theorem runBox_length {r : Run} (h : 24 + 16 * r.entries.length < 2 ^ 32) :
    (runBox r).length = runSize r ∧ runSize r ≤ 24 + 16 * r.entries.length := by
  have := runPayload_le r
  rw [runSize_eq h]
  simp only [runBox, fullBox, box, List.length_append, be_length]
  omega

theorem runs_size : ∀ (rs : List Run) (n : Nat),
    n + (rs.map fun r => 24 + 16 * r.entries.length).sum < 2 ^ 32 →
    rs.foldl (fun n r => w32(n + runSize r)) n = n + (rs.flatMap runBox).length ∧
      (rs.flatMap runBox).length ≤ (rs.map fun r => 24 + 16 * r.entries.length).sum := by
  intro rs
  induction rs with
  | nil => intro n _; simp
  | cons r rs ih =>
    intro n hn
    simp only [List.map_cons, List.sum_cons] at hn ⊢
    obtain ⟨h1, h2⟩ := runBox_length (r := r) (by omega)
    rw [List.foldl_cons, Nat.mod_eq_of_lt (by omega)]
    obtain ⟨h3, h4⟩ := ih (n + runSize r) (by omega)
    simp only [List.flatMap_cons, List.length_append]
    rw [h3]
    omega

theorem size_eq {t : Traf} (ht : Fits t) :
    size { t with tfhd := head t, runs := t.runs.map (ready (head t)) } =
      .ok (8 + ((kids t).flatMap (·.2)).length) ∧ 8 + ((kids t).flatMap (·.2)).length < 4294967296 := by
  have hsm := ht.small
  have hm : ((t.runs.map (ready (head t))).map fun r => 24 + 16 * r.entries.length) =
      t.runs.map fun r => 24 + 16 * r.entries.length := by
    rw [List.map_map]; rfl
  have hfl : (t.runs.map fun r => (Member.trun (seen (ready (head t) r)), runBox (ready (head t) r))).flatMap (·.2) =
      (t.runs.map (ready (head t))).flatMap runBox := by
    simp [List.flatMap_map]
  obtain ⟨hz, hle⟩ := tfhdPayload_length (head t)
  have hb : (tfhdBox (head t)).length = tfhdSize (head t) := by
    simp only [tfhdBox, fullBox, box, List.length_append, be_length]; omega
  unfold size kids
  rw [if_neg (by simpa using ht.some)]
  dsimp only
  simp only [List.cons_append, List.flatMap_cons, List.flatMap_append, hfl, List.length_append, hb]
  rw [Nat.mod_eq_of_lt (show 8 + tfhdSize (head t) < 4294967296 by omega)]
  cases hd : t.tfdt with
  | none =>
    have hr := runs_size (t.runs.map (ready (head t))) (8 + tfhdSize (head t)) (by rw [hm]; omega)
    rw [hm] at hr
    simp only [Res.ok_bind, hr.1, List.flatMap_nil, List.length_nil]
    exact ⟨by rw [Nat.zero_add, Nat.add_assoc]; rfl, by omega⟩
  | some d =>
    obtain ⟨h1, h2, h3, h4⟩ := tfdt_child (ht.time d hd)
    have hb' : (tfdtBox d).length = 12 + (tfdtPayload d).length := by
      simp only [tfdtBox, fullBox, box, List.length_append, be_length]; omega
    simp only [h1, Res.ok_bind, List.flatMap_cons, List.flatMap_nil, List.append_nil, hb']
    rw [Nat.mod_eq_of_lt (by omega)]
    have hr := runs_size (t.runs.map (ready (head t))) (8 + tfhdSize (head t) + (12 + (tfdtPayload d).length))
      (by rw [hm]; omega)
    rw [hm] at hr
    refine ⟨?_, by omega⟩
    show (pure _ : Res Nat) = _
    rw [hr.1]
    show Res.ok _ = _
    congr 1
    omega

theorem ser_eq {t : Traf} (ht : Fits t) (n : Nat) (hn : n = 8 + ((kids t).flatMap (·.2)).length) :
    EmitsFull (ser n { t with tfhd := head t, runs := t.runs.map (ready (head t)) })
      ((be 4 n ++ be 4 typeTraf) ++ (kids t).flatMap (·.2)) := by
  unfold ser kids
  rw [if_neg (by omega)]
  refine (emits_serBase n typeTraf).then ?_
  simp only [List.cons_append, List.flatMap_cons, List.flatMap_append]
  obtain ⟨hz, -⟩ := tfhdPayload_length (head t)
  have hb : (tfhdBox (head t)).length = tfhdSize (head t) := by
    simp only [tfhdBox, fullBox, box, List.length_append, be_length]; omega
  refine (emits_nested (tfhd_child (head_fits ht)).1 hb).then ?_
  refine Emits.then ?_ (Emits.thenAssert ?_)
  · cases hd : t.tfdt with
    | none => exact emits_skip
    | some d =>
      obtain ⟨h1, h2, h3, h4⟩ := tfdt_child (ht.time d hd)
      have hb' : (tfdtBox d).length = 12 + (tfdtPayload d).length := by
        simp only [tfdtBox, fullBox, box, List.length_append, be_length]; omega
      simp only [h1, List.flatMap_cons, List.flatMap_nil, List.append_nil]
      exact emits_nested h3 hb'
  · have hfl : (t.runs.map fun r => (Member.trun (seen (ready (head t) r)), runBox (ready (head t) r))).flatMap (·.2) =
        (t.runs.map (ready (head t))).flatMap runBox := by
      simp [List.flatMap_map]
    rw [hfl]
    refine Emits.each _ fun r hr => ?_
    obtain ⟨r, hm, rfl⟩ := List.mem_map.1 hr
    clear hr
    have hr := hm
    refine emits_nested (ready_child ht hr).1 (runBox_length ?_).1
    have := sum_le hr
    have := ht.small
    simp only [ready]
    omega

/-- The fragment that is read back. -/
def back (t : Traf) : RTraf :=
  ⟨some (hseen (head t)), t.tfdt, t.runs.map fun r => seen (ready (head t) r)⟩

theorem addRuns (rs : List Run) : ∀ t : RTraf,
    (rs.map Member.trun).foldl addAtom t = { t with runs := t.runs ++ rs } := by
  induction rs with
  | nil => intro t; simp
  | cons r rs ih => intro t; simp [addAtom, ih]

theorem kids_back (t : Traf) : ((kids t).map (·.1)).foldl addAtom ⟨none, none, []⟩ = back t := by
  have e : (t.runs.map fun r => (Member.trun (seen (ready (head t) r)), runBox (ready (head t) r))).map (·.1) =
      (t.runs.map fun r => seen (ready (head t) r)).map Member.trun := by simp
  unfold kids back
  simp only [List.cons_append, List.map_cons, List.map_append, List.foldl_cons, List.foldl_append, e, addRuns]
  cases t.tfdt <;> simp [addAtom]

theorem length_le_flatMap {α : Type} {g : α → Bytes} : ∀ {cs : List α}, (∀ c ∈ cs, 8 ≤ (g c).length) →
    cs.length ≤ (cs.flatMap g).length := by
  intro cs
  induction cs with
  | nil => intro _; simp
  | cons c cs ih =>
    intro h
    have h1 := h c (by simp)
    have h2 := ih fun x hx => h x (by simp [hx])
    simp only [List.flatMap_cons, List.length_append, List.length_cons]
    omega

theorem traf_round {t : Traf} (ht : Fits t) : ∃ bs, write t = .ok bs ∧
    ∀ rest, ∃ hd, parseAtom parse (bs ++ rest) = .ok (back t, hd, rest) := by
  obtain ⟨h1, h2⟩ := size_eq ht
  have hs := ser_eq ht _ rfl
  have hr := hs.runW (by simp; omega) h2
  refine ⟨_, ?_, fun rest => ⟨_, parseAtom_small (v := back t) (type := typeTraf)
    (payload := (kids t).flatMap (·.2)) ?_ rfl h2 (by decide) (by decide) rest⟩⟩
  · unfold write
    rw [prepare_eq ht, Res.ok_bind, h1, Res.ok_bind]
    exact hr
  · intro r
    unfold parse
    have hk := length_le_flatMap (g := fun c : Member × Bytes => c.2) fun c hc => (kids_child ht c hc).1
    rw [members_children _ h2 r (kids t) _ _ 8 (kids_child ht) (by simp only [List.length_append]; omega) rfl, kids_back]
    simp [Res.bind]

/-- A written fragment, read again with the defaults of the track applied, has every run where it was
and every sample as it was; the decode time, the track and the sample description are the same too. -/
theorem c28_defaults_preserved (t : Traf) (ht : Fits t) : ∃ bs, write t = .ok bs ∧
    ∀ rest, ∃ t' h hd, parseAtom parse (bs ++ rest) = .ok (t', hd, rest) ∧
      (∀ moof prevEnd, samples t.trex moof prevEnd t' = .ok (content t)) ∧
      t'.tfdt = t.tfdt ∧ t'.tfhd = some h ∧ h.trackId = t.tfhd.trackId ∧
      ∀ moof prevEnd, (fill t.trex moof prevEnd h).descIndex = t.tfhd.descIndex := by
  obtain ⟨bs, hw, hp⟩ := traf_round ht
  have hk := defaults_keeps t.tfhd ht.runs
  refine ⟨bs, hw, fun rest => ?_⟩
  obtain ⟨hd, hp⟩ := hp rest
  refine ⟨_, _, hd, hp, fun m p => ?_, rfl, rfl, hk.track, fun m p => ?_⟩
  · have := mergeRuns_eq (h := head t) (rs := t.runs) fun r hr => (ht.runs r hr).some
    have hb : (head t).base = t.tfhd.base := hk.base
    simp only [samples, back, fill_head, this, hb, content]
  · rw [fill_head]
    exact hk.index

/-- What is written is what differs: a field of the header is there if and only if it differs from the
default of the track, and a field of the samples of a run if and only if one of them differs from the
default of the fragment; flags of the first sample alone need one word. -/
theorem c28_omitted (t : Traf) (ht : Fits t) : ∃ bs, write t = .ok bs ∧
    ∀ rest, ∃ t' h hd, parseAtom parse (bs ++ rest) = .ok (t', hd, rest) ∧ t'.tfhd = some h ∧
      ∀ g, g = fill t.trex 0 0 h →
      (has h.flags 0x02 ↔ g.descIndex ≠ t.trex.descIndex) ∧
      (has h.flags 0x08 ↔ g.duration ≠ t.trex.duration) ∧
      (has h.flags 0x10 ↔ g.size ≠ t.trex.size) ∧
      (has h.flags 0x20 ↔ g.sampleFlags ≠ t.trex.sampleFlags) ∧
      t'.runs.length = t.runs.length ∧
      ∀ (i : Nat) (r r' : Run), t.runs[i]? = some r → t'.runs[i]? = some r' →
        (has r'.flags 0x001 ↔ r.dataOffset ≠ 0) ∧
        (has r'.flags 0x100 ↔ ∃ e ∈ r.entries, e.duration ≠ g.duration) ∧
        (has r'.flags 0x200 ↔ ∃ e ∈ r.entries, e.size ≠ g.size) ∧
        (has r'.flags 0x800 ↔ ∃ e ∈ r.entries, e.offset ≠ 0) ∧
        (has r'.flags 0x400 ↔ ∃ e ∈ r.entries.tail, e.flags ≠ g.sampleFlags) ∧
        (has r'.flags 0x004 ↔ (∀ e ∈ r.entries.tail, e.flags = g.sampleFlags) ∧
          ∃ e ∈ r.entries, e.flags ≠ g.sampleFlags) := by
  obtain ⟨bs, hw, hp⟩ := traf_round ht
  refine ⟨bs, hw, fun rest => ?_⟩
  obtain ⟨hd, hp⟩ := hp rest
  refine ⟨_, _, hd, hp, rfl, fun g hg => ?_⟩
  rw [fill_head] at hg
  subst hg
  obtain ⟨h1, h2, h3, h4, h5, -⟩ := henc_has (t.trex.descIndex != (defaults t.tfhd t.runs).descIndex)
    (t.trex.duration != (defaults t.tfhd t.runs).duration) (t.trex.size != (defaults t.tfhd t.runs).size)
    (t.trex.sampleFlags != (defaults t.tfhd t.runs).sampleFlags)
  rw [← tfhdFlags_eq] at h1 h2 h3 h4 h5
  have hf : (hseen (head t)).flags = tfhdFlags t.trex (defaults t.tfhd t.runs) := rfl
  rw [hf, h2, h3, h4, h5]
  simp only [bne_iff_ne, head]
  refine ⟨ne_comm, ne_comm, ne_comm, ne_comm, by simp [back], fun i r r' hi hi' => ?_⟩
  simp only [back, List.getElem?_map, hi, Option.map_some, Option.some.injEq] at hi'
  subst hi'
  obtain ⟨b1, b2, b3, b4, b5, b6⟩ := bits_has (head t) r
  have hb : (seen (ready (head t) r)).flags = bits (head t) r := rfl
  rw [hb, b1, b2, b3, b4, b5, b6]
  have hr : r.entries ≠ [] := (ht.runs r (List.mem_of_getElem? hi)).some
  refine ⟨by simp, by simp [head], by simp [head], by simp, by simp [head], ?_⟩
  cases he : r.entries with
  | nil => exact absurd he hr
  | cons e es =>
    simp only [List.head?_cons, Option.any_some, List.tail_cons, Bool.and_eq_true, bne_iff_ne, ne_eq,
      Bool.not_eq_true', List.any_eq_false, Decidable.not_not, List.mem_cons, exists_eq_or_imp, head]
    constructor
    · rintro ⟨x, y⟩; exact ⟨y, .inl x⟩
    · rintro ⟨y, x | ⟨z, hz, x⟩⟩
      · exact ⟨x, y⟩
      · exact absurd (y z hz) x

/-- A run without samples cannot be written: `setFlags` reads its first entry. -/
theorem c28_empty_run (t : Traf) (h : ∃ r ∈ t.runs, r.entries = []) : write t = .ub := by
  have hall : ∀ (g : Tfhd) (rs : List Run), (∃ r ∈ rs, r.entries = []) → setAllFlags g rs = .ub := by
    intro g rs
    induction rs with
    | nil => rintro ⟨r, hr, _⟩; simp at hr
    | cons x rs ih =>
      rintro ⟨r, hr, he⟩
      rw [setAllFlags]
      by_cases hx : x.entries = []
      · have : setFlags g x = .ub := by unfold setFlags; rw [hx]
        rw [this]; rfl
      · rw [setFlags_eq g x hx, Res.ok_bind]
        rcases List.mem_cons.1 hr with rfl | hr
        · exact absurd he hx
        · rw [ih ⟨r, hr, he⟩]; rfl
  have hne : t.runs ≠ [] := by
    obtain ⟨r, hr, _⟩ := h
    intro h0
    simp [h0] at hr
  unfold write prepare
  dsimp only
  rw [if_neg hne, hall _ _ h]
  rfl

/-- Two runs: in the first only the first sample has other flags, in the second the sizes differ and a
composition offset is there; the durations are the defaults of the track. -/
def sample : Traf :=
  ⟨⟨1, 1000, 0, 0⟩, ⟨0, 0, 1, 5000, 1, 0, 0, 0⟩, some ⟨1, 0, 2 ^ 33⟩,
    [⟨0, 0, 0, 0, [⟨1000, 50, 0x2000000, 0⟩, ⟨1000, 50, 0x1010000, 0⟩, ⟨1000, 50, 0x1010000, 0⟩]⟩,
     ⟨1, 0, 2 ^ 32 - 4, 0, [⟨1000, 50, 0x1010000, 7⟩, ⟨1000, 60, 0x1010000, 0⟩]⟩]⟩

example : Fits sample :=
  ⟨by decide, by decide, by decide, by decide, by
    intro d hd; cases hd; exact ⟨by decide, .inr ⟨rfl, by decide⟩⟩, by simp [sample], by
    intro r hr
    simp only [sample, List.mem_cons, List.not_mem_nil, or_false] at hr
    rcases hr with rfl | rfl <;> refine ⟨by decide, by decide, by simp, fun e he => ?_⟩ <;>
      simp only [List.mem_cons, List.not_mem_nil, or_false] at he
    · rcases he with rfl | rfl | rfl <;> exact ⟨by decide, by decide, by decide, by decide⟩
    · rcases he with rfl | rfl <;> exact ⟨by decide, by decide, by decide, by decide⟩, by decide⟩

example : content sample =
    [(5000, [⟨1000, 50, 0x2000000, 0⟩, ⟨1000, 50, 0x1010000, 0⟩, ⟨1000, 50, 0x1010000, 0⟩]),
     (4996, [⟨1000, 50, 0x1010000, 7⟩, ⟨1000, 60, 0x1010000, 0⟩])] := by decide

/-- 8 for the box, 32 for the header, 20 for the time, 20 for the first run, 36 for the second. -/
example : (match write sample with | .ok bs => bs.length | _ => 0) = 116 := by decide +kernel

end Verif.Traf
