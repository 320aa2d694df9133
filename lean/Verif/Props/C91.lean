import Verif.Props.C90
import Verif.Lemmas.MediaDesc
import Verif.Props.C66

/-!
# C91 — the descriptions of a media, and the decoder configuration asked from it
-/

namespace Verif.Mds

open Verif.Ent Verif.Sde
open Verif.Descr hiding audio audio_ok insert

variable {α : Type} {C : Class α} {t : Table α} {l : List (Item α)} {i : Item α}

/-! ## Entering descriptions -/

/-- A description given with samples becomes the last of the media, and its data reference is the current one. -/
theorem c91_enter (h : Holds C t l) (hi : i.Ok C) :
    ∃ t', t.enter C i.bytes = .ok t' ∧ Holds C t' (l ++ [i]) ∧ t'.dataRef = .ok i.dref := by
  refine ⟨⟨{ t.stsd with entries := t.stsd.entries ++ [i.entry] }, (t.stsd.entries ++ [i.entry]).length⟩, ?_, ⟨?_, ?_⟩, ?_⟩
  · unfold Table.enter
    rw [hi.opened]
    rfl
  · simp [h.entries]
  · intro j hj
    rw [List.mem_append, List.mem_singleton] at hj
    rcases hj with hj | hj
    · exact h.ok j hj
    · rw [hj]; exact hi
  · unfold Table.dataRef
    simp [Item.entry_dref]

/-- What is not a description is refused. -/
theorem c91_enter_refused {b : Bytes} {e : Err} (hb : openEntry (boxes C) .generic b = .err e) : t.enter C b = .err e := by
  unfold Table.enter
  rw [hb]
  rfl

/-- A new media has no descriptions. -/
theorem c91_empty : Holds C (Table.new (α := α)) [] ∧ (Table.new (α := α)).dataRef = .err .invalidMedia :=
  ⟨⟨rfl, fun _ hi => nomatch hi⟩, rfl⟩

/-- Whatever descriptions are given one after the other, the media has them all, in order. -/
theorem c91_history (l : List (Item α)) (hl : ∀ i ∈ l, i.Ok C) :
    ∃ t, runAll (Table.enter C) Table.new (l.map Item.bytes) = .ok t ∧ Holds C t l := by
  have key : ∀ (l pre : List (Item α)) (t : Table α), (∀ i ∈ l, i.Ok C) → Holds C t pre →
      ∃ t', runAll (Table.enter C) t (l.map Item.bytes) = .ok t' ∧ Holds C t' (pre ++ l) := by
    intro l
    induction l with
    | nil => intro pre t _ h; exact ⟨t, rfl, by rw [List.append_nil]; exact h⟩
    | cons i l ih =>
      intro pre t hl h
      obtain ⟨t1, e1, h1, _⟩ := c91_enter h (hl i (List.mem_cons_self ..))
      obtain ⟨t2, e2, h2⟩ := ih (pre ++ [i]) t1 (fun j hj => hl j (List.mem_cons_of_mem _ hj)) h1
      refine ⟨t2, ?_, by simpa using h2⟩
      simp only [List.map_cons, runAll]
      rw [e1]
      exact e2
  exact key l [] Table.new hl c91_empty.1

/-- The descriptions come back from a file: the box is written with all of them, and read again. -/
theorem c91_file (h : Holds C t l) (hd : ∀ i ∈ l, ¬ Dropped i.type) (hv : t.stsd.version < 256)
    (hf : t.stsd.flags < 16777216) (hz : 16 + (l.flatMap Item.bytes).length < 4294967296) :
    Survives (stsd (any (boxes C))) (fcc 's' 't' 's' 'd') t.stsd
      (fullBox (fcc 's' 't' 's' 'd') t.stsd.version t.stsd.flags (be 4 l.length ++ l.flatMap Item.bytes)) := by
  let es : List (Kid (Any (Bx α))) := l.map fun i => ⟨i.type, i.entry, i.bytes⟩
  have e1 : wire es = l.flatMap Item.bytes := by simp [wire, es, List.flatMap_map]
  have e2 : es.length = l.length := by simp [es]
  rw [← e1, ← e2]
  refine c70_stsd_any (es := es) (fun k hk => ?_) (by rw [h.entries]; simp [vals, es]) hv hf (by rw [e1]; exact hz)
  obtain ⟨i, hi, rfl⟩ := List.mem_map.mp hk
  refine ⟨?_, hd i hi⟩
  have := h.ok i hi
  cases i with
  | sample s => exact this.1.listed this.2
  | raw ty r d data =>
    have hr : RawOk ty r d data := this
    exact .generic hr.unknown (c70_generic_partial (x := ⟨ty, r, d, data, []⟩) rfl hr.head hr.good hr.size)

/-! ## Asking for them -/

/-- The description with a number is the one that was given, byte for byte, with its data reference; a handle need not be
given. -/
theorem c91_description (h : Holds C t l) {n : Nat} (hn : l[n]? = some i) (old : Bytes) :
    description C t (n + 1) (some old) = .ok (some i.bytes, i.dref) ∧ description C t (n + 1) none = .ok (none, i.dref) := by
  unfold description
  rw [h.entry hn]
  constructor
  · show (store (boxes C) i.entry).bind _ = _
    rw [(h.ok i (List.mem_of_getElem? hn)).store, ← Item.entry_dref]
    rfl
  · rw [← Item.entry_dref]; rfl

/-- Numbers start at one: there is no description 0 and none after the last. -/
theorem c91_outside (h : Holds C t l) {n : Nat} (hn : n = 0 ∨ n > l.length) (b : Option Bytes) :
    description C t n b = .err .badParam ∧ esd t n = .err .badParam ∧ decoderConfig t n = .err .badParam ∧
      decoderInformation t n b = .err .badParam := by
  unfold description esd decoderConfig decoderInformation needEs
  rw [h.outside hn]
  exact ⟨rfl, rfl, rfl, rfl⟩

/-- The elementary stream descriptor is that of the description. -/
theorem c91_esd (h : Holds C t l) {n : Nat} (hn : l[n]? = some i) {e : Es} (he : i.Es e) :
    esd t (n + 1) = .ok (some e, i.dref) := by
  unfold esd
  rw [h.entry hn, Res.ok_bind, findEsd_here (h.ok i (List.mem_of_getElem? hn)) he, Res.ok_bind, Item.entry_dref]

/-- A description that has none is an error, for all three functions. -/
theorem c91_no_esd (h : Holds C t l) {n : Nat} (hn : l[n]? = some i) (he : i.NoEs) (b : Option Bytes) :
    esd t (n + 1) = .err .invalidMedia ∧ decoderConfig t (n + 1) = .err .invalidMedia ∧
      decoderInformation t (n + 1) b = .err .invalidMedia := by
  have e1 := findEsd_none (h.ok i (List.mem_of_getElem? hn)) he
  unfold esd decoderConfig decoderInformation needEs
  rw [h.entry hn, Res.ok_bind, Res.ok_bind, e1]
  exact ⟨rfl, rfl, rfl⟩

/-- The decoder configuration is got as a descriptor, as it is in the description. -/
theorem c91_config (h : Holds C t l) {n : Nat} (hn : l[n]? = some i) {e : Es} (he : i.Es e) :
    decoderConfig t (n + 1) = .ok (match e.decoder with | some d => decBytes d | none => []) := by
  unfold decoderConfig
  rw [h.needEs hn he, Res.ok_bind]
  cases hd : e.decoder with
  | none => rfl
  | some d =>
    obtain ⟨_, _, _, _, _, _, _, _, hok⟩ := he
    have hl := decPayload_le (e := e) hd
    have hr := run_dec (hok.es.decoder d hd) (by have := hok.length; omega)
    have h5 : (decBytes d).length = 5 + (decPayload d).length := descr_length (by omega) _ _
    simp only
    rw [if_neg (by omega), hr.1]

/-- The parts of the decoder configuration are those of the description, and the handle gets the decoder specific
information without its header. -/
theorem c91_information (h : Holds C t l) {n : Nat} (hn : l[n]? = some i) {e : Es} (he : i.Es e) {d : Dec}
    (hd : e.decoder = some d) {x : Default} (hx : d.info = some x) (old : Bytes) :
    decoderInformation t (n + 1) (some old) =
      .ok (some ⟨d.objectType, d.streamType, d.bufferSize, if d.upstream then 2 else 0, d.maxBitrate, d.avgBitrate⟩,
        some x.data) := by
  have hl := decPayload_le (e := e) hd
  have hxl : x.data.length ≤ (decPayload d).length := by
    simp only [decPayload, hx, optBytes, List.length_append, plainBytes_length]; omega
  have hok : (esPayload e).length < 268435456 := by
    obtain ⟨_, _, _, _, _, _, _, _, hok⟩ := he
    exact hok.length
  unfold decoderInformation
  rw [h.needEs hn he, Res.ok_bind, hd]
  simp only [hx]
  rw [info_bytes (by omega)]
  rfl

/-- Without a handle only the parts are got. -/
theorem c91_no_handle (h : Holds C t l) {n : Nat} (hn : l[n]? = some i) {e : Es} (he : i.Es e) {d : Dec}
    (hd : e.decoder = some d) :
    decoderInformation t (n + 1) none =
      .ok (some ⟨d.objectType, d.streamType, d.bufferSize, if d.upstream then 2 else 0, d.maxBitrate, d.avgBitrate⟩, none) := by
  unfold decoderInformation
  rw [h.needEs hn he, Res.ok_bind, hd]

/-- When the description has no decoder specific information the handle is left as it is, with no error: a caller that uses
one handle for all gets the information of another description. -/
theorem c91_not_cleared (h : Holds C t l) {n : Nat} (hn : l[n]? = some i) {e : Es} (he : i.Es e) {d : Dec}
    (hd : e.decoder = some d) (hx : d.info = none) (old : Bytes) :
    decoderInformation t (n + 1) (some old) =
      .ok (some ⟨d.objectType, d.streamType, d.bufferSize, if d.upstream then 2 else 0, d.maxBitrate, d.avgBitrate⟩,
        some old) := by
  unfold decoderInformation
  rw [h.needEs hn he, Res.ok_bind, hd]
  simp only [hx]

/-- When it has no decoder configuration the handle is emptied, but nothing is written for the parts, with no error. -/
theorem c91_not_written (h : Holds C t l) {n : Nat} (hn : l[n]? = some i) {e : Es} (he : i.Es e) (hd : e.decoder = none)
    (old : Bytes) : decoderInformation t (n + 1) (some old) = .ok (none, some []) := by
  unfold decoderInformation
  rw [h.needEs hn he, Res.ok_bind, hd]
  rfl

/-! ## From the new description to the answer -/

/-- A new MPEG-4 description, given with samples: the decoder configuration asked from the media is the one given when the
description was made. -/
theorem c91_new {tr : Track} {media : Sde.Media} (hm : Of tr media) {dref objectType streamType buffer max avg ocr : Nat}
    (hd : dref < 65536) (h1 : objectType < 256) (h2 : streamType < 64) (h3 : buffer < 16777216) (h4 : max < 4294967296)
    (h5 : avg < 4294967296) {k : Nat} {data r : Bytes} (hk : 1 ≤ k) (hk4 : k ≤ 4) (hl : data.length < 2 ^ (7 * k))
    (hl' : data.length < 134217728) (hr : ocr ≠ 0 → tr.refer ocr = .ok ()) (h : Holds C t l) :
    ∃ b t', newDesc C true tr dref objectType streamType buffer max avg (some (descr k 5 data ++ r)) ocr = .ok (some b) ∧
      t.enter C b = .ok t' ∧
      (∀ old, description C t' (l.length + 1) (some old) = .ok (some b, dref)) ∧
      (∀ old, decoderInformation t' (l.length + 1) (some old) =
        .ok (some ⟨objectType, streamType, buffer, 0, max, avg⟩, some data)) ∧
      Holds C t' (l ++ [.sample ⟨media.type, zeros, dref, media.kind,
        [esdsKid 0 0 (freshEs objectType streamType buffer max avg (some ⟨5, data⟩))]⟩]) := by
  have hn := c90_new (C := C) hm hd h1 h2 h3 h4 h5 (Given.some hk hk4 hl r) (by rintro d ⟨⟩; exact hl') hr
  obtain ⟨hb, hok, hty⟩ := hn
  obtain ⟨t', e1, e2, _⟩ := c91_enter (C := C) (i := .sample _) h ⟨hok, hty⟩
  have hg : (l ++ [Item.sample (α := α) ⟨media.type, zeros, dref, media.kind,
      [esdsKid 0 0 (freshEs objectType streamType buffer max avg (some ⟨5, data⟩))]⟩])[l.length]? = some (.sample ⟨media.type,
        zeros, dref, media.kind, [esdsKid 0 0 (freshEs objectType streamType buffer max avg (some ⟨5, data⟩))]⟩) := by simp
  refine ⟨_, t', hb, e1, fun old => (c91_description e2 hg old).1, fun old => ?_, e2⟩
  refine (c91_information e2 hg (e := freshEs objectType streamType buffer max avg (some ⟨5, data⟩)) ?_ rfl rfl old).trans rfl
  exact ⟨_, [], [], 0, 0, rfl, rfl, (fun k hk => nomatch hk), fresh_ok h1 h2 h3 h4 h5 (by rintro d ⟨⟩; exact ⟨rfl, hl'⟩)⟩

/-! ## By time -/

/-- The description asked for by time is that of the sample at the time. -/
theorem c91_by_time {tr tr' : Reader.Track} {time : Nat} {f : ByTime.Found} (h : ByTime.getAt tr time = .ok (f, tr')) :
    descIndex tr time = .ok (f.desc, tr') := by
  unfold ByTime.getAt at h
  unfold descIndex
  cases h1 : Stts.findSamples tr.media.stts.entries time with
  | err e => rw [h1] at h; cases h
  | ub => rw [h1] at h; cases h
  | ok x =>
    rw [h1] at h
    simp only [Res.bind] at h ⊢
    cases h2 : Stsc.lookup tr.media.stsc x.num with
    | err e => rw [h2] at h; cases h
    | ub => rw [h2] at h; cases h
    | ok y =>
      rw [h2] at h
      simp only at h ⊢
      repeat' split at h
      all_goals first
        | (cases h; done)
        | (cases h; rfl)

/-! ## Examples -/

/-- Three descriptions: one with all there is, one without decoder specific information, one of a type not known. -/
def shy : Sample (Bx Tree.Tree) := ⟨fcc 'm' 'p' '4' 's', zeros, 2, .plain, [esdsKid 0 0 (freshEs 0x40 5 0 0 0 none)]⟩

theorem shy_es : EsdsOk 0 0 (freshEs 0x40 5 0 0 0 none) :=
  fresh_ok (by omega) (by omega) (by omega) (by omega) (by omega) (fun d hd => nomatch hd)

theorem shy_ok : shy.Ok (boxes leafs) :=
  ⟨by
    intro k hk
    simp only [shy, List.mem_singleton] at hk
    subst hk
    exact ⟨esds_survives shy_es.version shy_es.flags shy_es.es shy_es.length, esds_not_dropped⟩,
    ⟨rfl, by decide⟩, trivial, by unfold GoodType; decide, by decide +kernel⟩

def three : List (Item Tree.Tree) := [.sample ent, .sample shy, .raw (fcc 'd' 'v' 'h' 'e') six 1 [1, 2, 3]]

theorem three_ok : ∀ i ∈ three, i.Ok leafs := by
  intro i hi
  simp only [three, List.mem_cons, List.not_mem_nil, or_false] at hi
  rcases hi with rfl | rfl | rfl
  · exact ⟨ent_ok, ent_typed⟩
  · exact ⟨shy_ok, by simp only [Sample.Typed, shy, Kind.types]; decide⟩
  · exact ⟨⟨rfl, by decide⟩, by unfold GoodType; decide, by decide, by decide⟩

/-- The media with them. -/
def media : Table Tree.Tree := ⟨⟨0, 0, three.map Item.entry⟩, 3⟩
theorem media_holds : Holds leafs media three := ⟨rfl, three_ok⟩

theorem first_es : (Item.sample ent).Es Descr.audio :=
  ⟨ent, [], [btrtKid 6144 128000 96000], 0, 0, rfl, rfl, (fun k hk => nomatch hk), es_ok⟩
theorem second_es : (Item.sample shy).Es (freshEs 0x40 5 0 0 0 none) :=
  ⟨shy, [], [], 0, 0, rfl, rfl, (fun k hk => nomatch hk), shy_es⟩

example := c91_enter media_holds (i := .sample ent) ⟨ent_ok, ent_typed⟩
example := c91_enter_refused (C := leafs) (t := media) (b := [1, 2]) (e := .ioErr) (by
  have h : (match openEntry (boxes leafs) .generic [1, 2] with | .err .ioErr => true | _ => false) = true := by decide +kernel
  split at h
  · assumption
  · cases h)
example := c91_history three three_ok
example := c91_file media_holds (by
  intro i hi
  simp only [three, List.mem_cons, List.not_mem_nil, or_false] at hi
  rcases hi with rfl | rfl | rfl <;> decide) (by decide) (by decide) (by decide +kernel)
example := c91_description media_holds (n := 2) rfl []
example := c91_outside media_holds (n := 4) (Or.inr (by decide)) none
example := c91_esd media_holds (n := 0) rfl first_es
example := c91_no_esd media_holds (n := 2) rfl trivial none
example := c91_config media_holds (n := 0) rfl first_es
example := c91_information media_holds (n := 0) rfl first_es rfl rfl [9]
example := c91_no_handle media_holds (n := 0) rfl first_es rfl
example := c91_not_cleared media_holds (n := 1) rfl second_es rfl rfl [9]
example := c91_new (C := leafs) talk_of (dref := 1) (objectType := 0x40) (streamType := 5) (buffer := 6144) (max := 128000)
  (avg := 96000) (ocr := 7) (by omega) (by omega) (by omega) (by omega) (by omega) (by omega)
  (k := 1) (data := [0x12, 0x10]) (r := []) (by omega) (by omega) (by decide) (by decide) (fun _ => rfl) media_holds

/-- A descriptor without a decoder configuration. -/
def bare : Es := { freshEs 0 0 0 0 0 none with decoder := none }
theorem bare_es : EsdsOk 0 0 bare := by
  obtain ⟨h1, h2, ⟨a, b, c, d, e, f, g, h, i⟩, h4⟩ := shy_es
  exact ⟨h1, h2, ⟨a, (fun _ h => nomatch h), c, d, e, f, g, h, i⟩, by decide +kernel⟩
def bareEntry : Sample (Bx Tree.Tree) := ⟨fcc 'm' 'p' '4' 's', zeros, 2, .plain, [esdsKid 0 0 bare]⟩
theorem bare_ok : bareEntry.Ok (boxes leafs) :=
  ⟨by
    intro k hk
    simp only [bareEntry, List.mem_singleton] at hk
    subst hk
    exact ⟨esds_survives bare_es.version bare_es.flags bare_es.es bare_es.length, esds_not_dropped⟩,
    ⟨rfl, by decide⟩, trivial, by unfold GoodType; decide, by decide +kernel⟩
theorem bare_has : (Item.sample bareEntry).Es bare :=
  ⟨bareEntry, [], [], 0, 0, rfl, rfl, (fun k hk => nomatch hk), bare_es⟩
example := c91_not_written (C := leafs) (t := ⟨⟨0, 0, [bareEntry.entry]⟩, 1⟩) (l := [.sample bareEntry]) ⟨rfl, by
    intro i hi
    rw [List.mem_singleton] at hi
    subst hi
    exact ⟨bare_ok, by simp only [Sample.Typed, bareEntry, Kind.types]; decide⟩⟩ (n := 0) rfl
  bare_has rfl [9]

/-- The history of C66: at time 45 there is a sample, and its description is found. -/
example (jb : Nat → UInt8) (j : Nat → Nat) : ∃ m, runAll Media.apply (Media.create 1) (Media.demo jb j) = .ok m ∧
    ∃ f t', ByTime.getAt ⟨m, none, none⟩ 45 = .ok (f, t') ∧ f.bytes = [6, 7, 8] ∧
      descIndex ⟨m, none, none⟩ 45 = .ok (f.desc, t') := by
  have e : Media.supplied (Media.demo jb j) =
      [⟨[1, 2], 10⟩, ⟨[3, 4], 10⟩, ⟨[5], 7⟩, ⟨[], 10⟩, ⟨[6, 7, 8], 9⟩] := rfl
  obtain ⟨m, c, s, h1, h2, h3, h4, h5⟩ := ByTime.c66_sample_by_time_partial 1 (Media.demo jb j)
    (by simp [Media.demo, Media.AllValid, Media.Step.Valid, Media.Step.samples, Media.Step.brings, Batch.values, List.replicate])
    (by rw [e]; decide) (by simp [Media.demo]) (by rw [e]; decide) (by simp [Media.demo, Media.dataOf, Media.Step.data])
    (by rw [e]; decide) [] (by simp) (by simp) (Or.inl rfl) (by rw [e]; decide) [] (by simp) (Or.inl rfl)
    (by simp [Media.demo, Media.dataOf, Media.Step.data])
  injection h2 with h2
  injection h3 with h3
  subst h2 h3
  obtain ⟨d, t', hg⟩ := h4 45 4 ⟨[6, 7, 8], 9⟩ (by rw [e]; decide) (by rw [e]; rfl)
  exact ⟨m, h1, _, t', hg, rfl, c91_by_time hg⟩

end Verif.Mds
