import Verif.Lemmas.Od

/-!
# C74 Object descriptors and the commands that carry them survive being written and read

The theorems compare with the layout in Spec/Od.lean. `readAny` and `readCmd` there say what the
reader gives instead where it does not give the same: `c74_tag_lost` and `c74_url_drops` show that it
differs, `c74_same` and `c74_command_same` say when it does not.
-/

namespace Verif.Od

open Verif.Descr

/-- A descriptor is written with the standard's layout and read with everything in its place. -/
theorem c74_descriptor_partial {a : Any} (ha : AnyOk a) (h : (anyBytes a).length < 2 ^ 28) :
    runW (anySize a) (putAny a) = .ok (anyBytes a) ∧
    ∀ rest read, getDesc getAny ⟨anyBytes a ++ rest, read⟩ = .ok (readAny a, ⟨rest, read + (anyBytes a).length⟩) :=
  ⟨(written_any ha (any_payload_lt h)).1, fun rest read => parses_any ha (any_payload_lt h) rest read⟩

/-- The same descriptor comes back: an object descriptor with the tag of streams, an initial object
descriptor with the tag of files and no URL, any other. -/
theorem c74_same {a : Any} (ha : AnyOk a) (h : (anyBytes a).length < 2 ^ 28)
    (ho : ∀ d, a = .od d → d.tag = 1) (hi : ∀ d, a = .iod d → d.tag = 0x10 ∧ d.url = []) :
    ∃ bs, runW (anySize a) (putAny a) = .ok bs ∧
      ∀ rest read, getDesc getAny ⟨bs ++ rest, read⟩ = .ok (a, ⟨rest, read + bs.length⟩) := by
  refine ⟨_, (c74_descriptor_partial ha h).1, fun rest read => ?_⟩
  have e : readAny a = a := by
    cases a with
    | od d =>
      have := ho d rfl
      cases d
      simp only at this
      subst this
      rfl
    | iod d =>
      obtain ⟨h1, h2⟩ := hi d rfl
      cases d
      simp only at h1 h2
      subst h1
      simp [readAny, readIod, h2]
    | item i => rfl
  have := (c74_descriptor_partial ha h).2 rest read
  rw [e] at this
  exact this

/-- A copy is what is read after writing. -/
theorem c74_copy {a : Any} (ha : AnyOk a) (h : (anyBytes a).length < 2 ^ 28) : copy a = .ok (some (readAny a)) := by
  obtain ⟨h1, h2⟩ := c74_descriptor_partial ha h
  have := h2 [] 0
  rw [List.append_nil] at this
  unfold copy
  rw [h1]
  simp only [this]

/-- A command is written with the standard's layout and read with everything in its place. -/
theorem c74_command_partial {c : Cmd} (hc : CmdOk c) (h : (cmdPayload c).length < 2 ^ 28) :
    runW (cmdSize c) (putCmd c) = .ok (cmdBytes c) ∧
    ∀ rest read, parseCommand ⟨cmdBytes c ++ rest, read⟩ = .ok (readCmd c, ⟨rest, read + (cmdBytes c).length⟩) :=
  ⟨(written_cmd hc h).1, fun rest read => parses_cmd hc h rest read⟩

/-- Nothing is changed in a command without extensions whose object descriptors have the tag of
streams. -/
theorem c74_command_same {c : Cmd} (hc : CmdOk c) (h : (cmdPayload c).length < 2 ^ 28)
    (ho : ∀ ods ext, c = .odUpdate ods ext → ext = [] ∧ ∀ d ∈ ods, d.tag = 1)
    (he : ∀ id es ref ext, c = .esUpdate id es ref ext → ext = []) :
    ∃ bs, runW (cmdSize c) (putCmd c) = .ok bs ∧
      ∀ rest read, parseCommand ⟨bs ++ rest, read⟩ = .ok (c, ⟨rest, read + bs.length⟩) := by
  refine ⟨_, (c74_command_partial hc h).1, fun rest read => ?_⟩
  have e : readCmd c = c := by
    cases c with
    | odUpdate ods ext =>
      obtain ⟨h1, h2⟩ := ho ods ext rfl
      subst h1
      simp only [readCmd, List.map_nil, Cmd.odUpdate.injEq, and_true]
      have : ods.map readOd = ods.map id := List.map_congr_left fun d hd => by
        have := h2 d hd
        cases d
        simp only at this
        subst this
        rfl
      rw [this, List.map_id]
    | esUpdate id es ref ext =>
      have := he id es ref ext rfl
      subst this
      rfl
    | plain d => rfl
  have := (c74_command_partial hc h).2 rest read
  rw [e] at this
  exact this

/-- The `iods` box with a descriptor. -/
theorem c74_iods_box (version flags : Nat) {a : Any} (hv : version < 256) (hf : flags < 2 ^ 24) (ha : AnyOk a)
    (h : (anyBytes a).length < 2 ^ 28) :
    BoxRoundTrip (iodsSize (some a)) (iodsSerialize version flags (some a)) iodsParse ((version, flags), some (readAny a))
      (fullBox (fcc 'i' 'o' 'd' 's') version flags (anyBytes a)) := by
  obtain ⟨hw, hl⟩ := written_any ha (any_payload_lt h)
  have hsz : iodsSize (some a) = 12 + anySize a := by unfold iodsSize sizeOpt; simp only; omega
  refine BoxRoundTrip.ofFull (type := typeIods) ?_ ?_ ?_ ?_ (by decide) (by decide)
  · exact (emits_nested hw hl).thenAssert
  · unfold iodsParse
    refine ((parses_versionFlags hv hf).at _).bind ?_
    exact ((parses_any ha (any_payload_lt h)).at _).bind_nil ((parses_pure _).at _)
  · omega
  · omega

/-- A descriptor is only put in an empty box. -/
theorem c74_iods_set (d : Option Any) (new : Any) :
    (d = none → iodsSet d new = .ok (some new)) ∧ (d ≠ none → iodsSet d new = .err .badParam) := by
  cases d <;> simp [iodsSet]

/-! ## Adding descriptors -/

/-- Adding puts the new descriptor, and nothing else, among those inside. -/
theorem c74_add (d : Od) (i : Item) : (odAdd d i).items.Perm (i :: d.items) ∧
    (odAdd d i).tag = d.tag ∧ (odAdd d i).id = d.id ∧ (odAdd d i).url = d.url := by
  have mid : ∀ (a b : List Item), (a ++ ([i] ++ b)).Perm (i :: (a ++ b)) := fun a b => List.perm_middle
  cases i with
  | es e =>
    refine ⟨?_, rfl, rfl, rfl⟩
    have := mid (d.es.map .es) (d.inc.map .inc ++ (d.ref.map .ref ++ (d.oci.map (fun x => .child (.plain x)) ++
      (d.ptr.map (fun p => .child (.ptr p)) ++ d.ext))))
    simpa [odAdd, Od.items, List.append_assoc] using this
  | inc e =>
    refine ⟨?_, rfl, rfl, rfl⟩
    have := mid (d.es.map .es ++ d.inc.map .inc) (d.ref.map .ref ++ (d.oci.map (fun x => .child (.plain x)) ++
      (d.ptr.map (fun p => .child (.ptr p)) ++ d.ext)))
    simpa [odAdd, Od.items, List.append_assoc] using this
  | ref e =>
    refine ⟨?_, rfl, rfl, rfl⟩
    have := mid (d.es.map .es ++ (d.inc.map .inc ++ d.ref.map .ref)) (d.oci.map (fun x => .child (.plain x)) ++
      (d.ptr.map (fun p => .child (.ptr p)) ++ d.ext))
    simpa [odAdd, Od.items, List.append_assoc] using this
  | child c =>
    cases c with
    | ptr p =>
      refine ⟨?_, rfl, rfl, rfl⟩
      have := mid (d.es.map .es ++ (d.inc.map .inc ++ (d.ref.map .ref ++ (d.oci.map (fun x => .child (.plain x)) ++
        d.ptr.map (fun p => .child (.ptr p)))))) d.ext
      simpa [odAdd, Od.items, List.append_assoc] using this
    | _ =>
      refine ⟨?_, rfl, rfl, rfl⟩
      have := mid d.items []
      simpa [odAdd, Od.items, List.append_assoc] using this

/-- Likewise for an initial object descriptor. -/
theorem c74_iod_add (d : Iod) (i : Item) : (iodAdd d i).items.Perm (i :: d.items) ∧
    (iodAdd d i).tag = d.tag ∧ (iodAdd d i).id = d.id ∧ (iodAdd d i).url = d.url ∧
    (iodAdd d i).inline = d.inline ∧ (iodAdd d i).profiles = d.profiles := by
  have mid : ∀ (a b : List Item), (a ++ ([i] ++ b)).Perm (i :: (a ++ b)) := fun a b => List.perm_middle
  cases i with
  | es e =>
    refine ⟨?_, rfl, rfl, rfl, rfl, rfl⟩
    have := mid (d.es.map .es) (d.inc.map .inc ++ (d.oci.map (fun x => .child (.plain x)) ++
      (d.ptr.map (fun p => .child (.ptr p)) ++ d.ext)))
    simpa [iodAdd, Iod.items, List.append_assoc] using this
  | inc e =>
    refine ⟨?_, rfl, rfl, rfl, rfl, rfl⟩
    have := mid (d.es.map .es ++ d.inc.map .inc) (d.oci.map (fun x => .child (.plain x)) ++
      (d.ptr.map (fun p => .child (.ptr p)) ++ d.ext))
    simpa [iodAdd, Iod.items, List.append_assoc] using this
  | ref e =>
    refine ⟨?_, rfl, rfl, rfl, rfl, rfl⟩
    have := mid d.items []
    simpa [iodAdd, Iod.items, List.append_assoc] using this
  | child c =>
    cases c with
    | ptr p =>
      refine ⟨?_, rfl, rfl, rfl, rfl, rfl⟩
      have := mid (d.es.map .es ++ (d.inc.map .inc ++ (d.oci.map (fun x => .child (.plain x)) ++
        d.ptr.map (fun p => .child (.ptr p))))) d.ext
      simpa [iodAdd, Iod.items, List.append_assoc] using this
    | _ =>
      refine ⟨?_, rfl, rfl, rfl, rfl, rfl⟩
      have := mid d.items []
      simpa [iodAdd, Iod.items, List.append_assoc] using this

/-- Adding anything but object content information keeps a descriptor writable, so that the one built
by any sequence of additions is read as it was. -/
theorem c74_add_keeps {d : Od} {i : Item} (hd : OdOk d) (hi : ItemOk i)
    (ho : ∀ x, i = .child (.plain x) → ¬ Oci x.tag) : OdOk (odAdd d i) := by
  obtain ⟨hp, h1, h2, h3⟩ := c74_add d i
  have hit : ∀ j ∈ (odAdd d i).items, ItemOk j := by
    intro j hj
    rcases List.mem_cons.1 (hp.mem_iff.1 hj) with rfl | hj
    · exact hi
    · exact hd.items j hj
  refine ⟨by rw [h1]; exact hd.tag, by rw [h2]; exact hd.id, by rw [h3]; exact hd.url, hit, ?_, ?_⟩
  · have : (odAdd d i).oci = d.oci := by
      cases i with
      | child c => cases c <;> rfl
      | _ => rfl
    rw [this]
    exact hd.oci
  · intro j hj
    cases i with
    | child c =>
      cases c with
      | ptr p => exact hd.ext j hj
      | plain x =>
        rcases List.mem_append.1 (show j ∈ d.ext ++ [Item.child (.plain x)] from hj) with hj | hj
        · exact hd.ext j hj
        · rw [List.mem_singleton.1 hj]; exact ho x rfl
      | dec x =>
        rcases List.mem_append.1 (show j ∈ d.ext ++ [Item.child (.dec x)] from hj) with hj | hj
        · exact hd.ext j hj
        · rw [List.mem_singleton.1 hj]; trivial
      | sl x =>
        rcases List.mem_append.1 (show j ∈ d.ext ++ [Item.child (.sl x)] from hj) with hj | hj
        · exact hd.ext j hj
        · rw [List.mem_singleton.1 hj]; trivial
    | _ => exact hd.ext j hj

/-- Likewise for an initial object descriptor. -/
theorem c74_iod_add_keeps {d : Iod} {i : Item} (hd : IodOk d) (hi : ItemOk i)
    (ho : ∀ x, i = .child (.plain x) → ¬ Oci x.tag) : IodOk (iodAdd d i) := by
  obtain ⟨hp, h1, h2, h3, h4, h5⟩ := c74_iod_add d i
  have hit : ∀ j ∈ (iodAdd d i).items, ItemOk j := by
    intro j hj
    rcases List.mem_cons.1 (hp.mem_iff.1 hj) with rfl | hj
    · exact hi
    · exact hd.items j hj
  refine ⟨by rw [h1]; exact hd.tag, by rw [h2]; exact hd.id, by rw [h4]; exact hd.inline, by rw [h3]; exact hd.url,
    by rw [h5]; exact hd.profiles, hit, ?_, ?_⟩
  · have : (iodAdd d i).oci = d.oci := by
      cases i with
      | child c => cases c <;> rfl
      | _ => rfl
    rw [this]
    exact hd.oci
  · intro j hj
    cases i with
    | es e => exact hd.ext j hj
    | inc e => exact hd.ext j hj
    | ref e =>
      rcases List.mem_append.1 (show j ∈ d.ext ++ [Item.ref e] from hj) with hj | hj
      · exact hd.ext j hj
      · rw [List.mem_singleton.1 hj]; trivial
    | child c =>
      cases c with
      | ptr p => exact hd.ext j hj
      | plain x =>
        rcases List.mem_append.1 (show j ∈ d.ext ++ [Item.child (.plain x)] from hj) with hj | hj
        · exact hd.ext j hj
        · rw [List.mem_singleton.1 hj]; exact ho x rfl
      | dec x =>
        rcases List.mem_append.1 (show j ∈ d.ext ++ [Item.child (.dec x)] from hj) with hj | hj
        · exact hd.ext j hj
        · rw [List.mem_singleton.1 hj]; trivial
      | sl x =>
        rcases List.mem_append.1 (show j ∈ d.ext ++ [Item.child (.sl x)] from hj) with hj | hj
        · exact hd.ext j hj
        · rw [List.mem_singleton.1 hj]; trivial

/-- Removing the stream descriptors leaves the others. -/
theorem c74_remove (d : Od) : ∃ es, d.items = es ++ (removeEs d).items ∧ es.all (fun i => i matches .es _) ∧
    ∀ i ∈ (removeEs d).items, OdOk d → ¬ i matches .es _ := by
  refine ⟨d.es.map .es, rfl, ?_, ?_⟩
  · rw [List.all_map]; simp
  · intro i hi hd
    simp only [Od.items, removeEs, List.map_nil, List.nil_append, List.mem_append, List.mem_map] at hi
    rcases hi with ⟨x, _, rfl⟩ | ⟨x, _, rfl⟩ | ⟨x, _, rfl⟩ | ⟨x, _, rfl⟩ | h
    · simp
    · simp
    · simp
    · simp
    · have := hd.ext i h
      cases i with
      | es e => exact this.elim
      | _ => simp

/-! ## Examples -/

/-- An object descriptor as it is in a file: a reference to a track, and an extension. -/
def scene : Od := ⟨0x11, 5, [], [], [], [1, 2], [⟨0x41, [9]⟩], [⟨1, 0, 0⟩], [.child (.plain ⟨0xC0, [7]⟩)]⟩

theorem scene_ok : OdOk scene where
  tag := .inr rfl
  id := by decide
  url := by decide
  items := by
    intro i hi
    simp only [scene, Od.items, List.map_nil, List.nil_append, List.map_cons, List.cons_append, List.mem_cons,
      List.not_mem_nil, or_false] at hi
    rcases hi with rfl | rfl | rfl | rfl | rfl
    · exact show (1 : Nat) < 2 ^ 16 by decide
    · exact show (2 : Nat) < 2 ^ 16 by decide
    · exact ⟨by decide, by decide⟩
    · exact ⟨by decide, by decide, by decide⟩
    · exact ⟨by decide, by decide⟩
  oci := by intro x hx; simp only [scene, List.mem_singleton] at hx; subst hx; exact ⟨by decide, by decide⟩
  ext := by intro x hx; simp only [scene, List.mem_singleton] at hx; subst hx; exact fun h => by simp [Oci] at h

/-- The initial object descriptor of a file with two streams. -/
def initial : Iod := ⟨0x10, 1, 0, [], ⟨0xFF, 0xFE, 0x29, 1, 0xFF⟩, [], [1, 2], [], [], [.ref 3]⟩

theorem initial_ok : IodOk initial where
  tag := .inr rfl
  id := by decide
  inline := by decide
  url := by decide
  profiles := by decide
  items := by
    intro i hi
    simp only [initial, Iod.items, List.map_nil, List.nil_append, List.map_cons, List.cons_append, List.mem_cons,
      List.not_mem_nil, or_false] at hi
    rcases hi with rfl | rfl | rfl
    · exact show (1 : Nat) < 2 ^ 32 by decide
    · exact show (2 : Nat) < 2 ^ 32 by decide
    · exact show (3 : Nat) < 2 ^ 16 by decide
  oci := by intro x hx; cases hx
  ext := by intro x hx; simp only [initial, List.mem_singleton] at hx; subst hx; trivial

/-- One that carries its streams. -/
def stream : Od := ⟨1, 6, [], [audio], [], [], [], [], []⟩

theorem stream_ok : OdOk stream where
  tag := .inl rfl
  id := by decide
  url := by decide
  items := by
    intro i hi
    simp only [stream, Od.items, List.map_nil, List.append_nil, List.map_cons, List.mem_singleton] at hi
    subst hi
    exact audio_ok
  oci := by intro x hx; cases hx
  ext := by intro x hx; cases hx

example := c74_descriptor_partial (a := .od scene) scene_ok (by decide +kernel)
example := c74_same (a := .iod initial) initial_ok (by decide +kernel) (fun _ h => by cases h)
  (fun d h => by cases h; exact ⟨rfl, rfl⟩)
example := c74_same (a := .od stream) stream_ok (by decide +kernel) (fun d h => by cases h; rfl) (fun _ h => by cases h)
example := c74_copy (a := .iod initial) initial_ok (by decide +kernel)
example := c74_command_partial (c := .odUpdate [scene, stream] [.iod initial])
  ⟨by intro d hd; rcases List.mem_cons.1 hd with rfl | hd
      · exact scene_ok
      · rw [List.mem_singleton.1 hd]; exact stream_ok,
   by intro a ha; rw [List.mem_singleton.1 ha]; exact ⟨initial_ok, fun d h => by cases h⟩⟩ (by decide +kernel)
example := c74_command_same (c := .odUpdate [stream] [])
  ⟨by intro d hd; rw [List.mem_singleton.1 hd]; exact stream_ok, by intro a ha; cases ha⟩ (by decide +kernel)
  (fun ods ext h => by cases h; exact ⟨rfl, fun d hd => by rw [List.mem_singleton.1 hd]; rfl⟩)
  (fun _ _ _ _ h => by cases h)
example := c74_command_same (c := .esUpdate 7 [audio] [3] [])
  ⟨by decide, by intro d hd; rw [List.mem_singleton.1 hd]; exact audio_ok, by decide, by intro a ha; cases ha⟩
  (by decide +kernel) (fun _ _ h => by cases h) (fun _ _ _ _ h => by cases h; rfl)
example := c74_iods_box 0 0 (a := .iod initial) (by decide) (by decide) initial_ok (by decide +kernel)
example := c74_add_keeps (i := .inc 4) scene_ok (show (4 : Nat) < 2 ^ 32 by decide) (fun _ h => by cases h)
example := c74_iod_add_keeps (i := .inc 4) initial_ok (show (4 : Nat) < 2 ^ 32 by decide) (fun _ h => by cases h)
example : (removeEs stream).items = [] ∧ (removeEs scene).items.length = 5 := by decide

/-! ## What is not kept -/

/-- The tag that distinguishes an object descriptor of the file format is lost. -/
theorem c74_tag_lost (d : Od) (hd : OdOk d) (h : (odBytes d).length < 2 ^ 28) (ht : d.tag = 0x11) :
    ∃ d', copy (.od d) = .ok (some (.od d')) ∧ d'.tag = 0x01 ∧ d' ≠ d := by
  refine ⟨readOd d, c74_copy (a := .od d) hd h, rfl, fun e => ?_⟩
  have := congrArg Od.tag e
  simp [readOd, ht] at this

/-- An initial object descriptor with a URL loses its profiles and its streams. -/
theorem c74_url_drops (d : Iod) (hd : IodOk d) (h : (iodBytes d).length < 2 ^ 28) (hu : d.url ≠ []) :
    ∃ d', copy (.iod d) = .ok (some (.iod d')) ∧ d'.url = d.url ∧ d'.items = d.ext ∧
      d'.profiles = ⟨0, 0, 0, 0, 0⟩ := by
  refine ⟨readIod d, c74_copy (a := .iod d) hd h, ?_⟩
  unfold readIod
  rw [if_neg hu]
  exact ⟨rfl, by simp [Iod.items], rfl⟩

example := c74_tag_lost scene scene_ok (by decide +kernel) rfl
example : ∃ d, IodOk d ∧ d.url ≠ [] ∧ d.items.length = 3 :=
  ⟨{ initial with url := [0x78] }, { initial_ok with url := by decide, items := initial_ok.items }, by decide, by decide⟩

/-- Object content information that was added is written behind the pointers and extensions added
before it, and read into a list that is written before them: the copy's bytes are in another order. -/
theorem c74_oci_moves :
    ∃ d d' bs bs', OdOk d ∧ odAdd (odAdd d (.child (.ptr ⟨1, 0, 0⟩))) (.child (.plain ⟨0x41, [9]⟩)) = d' ∧
      runW (odSize d') (putOd d') = .ok bs ∧
      (∃ c, copy (.od d') = .ok (some (.od c)) ∧ c.oci = [⟨0x41, [9]⟩] ∧ c.ext = [] ∧
        runW (odSize c) (putOd c) = .ok bs' ∧ bs' ≠ bs ∧ bs'.length = bs.length) ∧
      d'.oci = [] ∧ d'.ext = [.child (.plain ⟨0x41, [9]⟩)] := by
  refine ⟨⟨1, 5, [], [], [], [], [], [], []⟩, _, _, _, ?_, rfl, rfl, ⟨_, rfl, rfl, rfl, rfl, ?_, ?_⟩, rfl, rfl⟩
  · exact ⟨.inl rfl, by decide, by decide, (by intro i hi; cases hi), (by intro i hi; cases hi), (by intro i hi; cases hi)⟩
  · decide
  · decide

/-- A copy of a descriptor that cannot be written is reported as a success with no result. -/
theorem c74_copy_hides_errors : ∃ a, (∀ bs, runW (anySize a) (putAny a) ≠ .ok bs) ∧ copy a = .ok none := by
  refine ⟨.item (.child (.sl { Sl.zero with timestamps := false })), fun bs h => ?_, rfl⟩
  exact c49_own_timestamps_not_written { Sl.zero with timestamps := false } rfl bs h

end Verif.Od
