import Verif.Spec.Entries
import Verif.Spec.Foreign
import Verif.Lemmas.Tree

/-!
# C105: boxes of the caller
-/

namespace Verif.Foreign

/-! ## Lemmas -/

theorem type_uuid : fcc 'u' 'u' 'i' 'd' = typeUuid := by decide

theorem call_type (a : Ask) : a.call.type = a.type := by
  cases a
  · rfl
  · exact type_uuid.symm

theorem call_data (a : Ask) : a.call.data = a.payload := by cases a <;> rfl

/-- `x` is the box `a`, as far as it shows. -/
structure Is (a : Ask) (x : Atom) : Prop where
  type : x.type = a.type
  data : x.data = a.payload
  uuid : a.type = typeUuid → a.uuid = some x.uuid
  other : a.type ≠ typeUuid → a.uuid = none

theorem is_call (a : Ask) : Is a a.call := by
  refine ⟨call_type a, call_data a, ?_, ?_⟩
  · cases a with
    | plain t d => intro h; show (if _ then _ else _) = _; rw [if_pos (by rw [type_uuid]; exact h)]; rfl
    | ident u d => intro _; rfl
  · cases a with
    | plain t d => intro h; show (if _ then _ else _) = _; rw [if_neg (by rw [type_uuid]; exact h)]
    | ident u d => intro h; exact absurd type_uuid h

theorem Is.get {a : Ask} {x : Atom} (h : Is a x) : Foreign.get x = (a.type, a.uuid, a.payload) := by
  unfold Foreign.get
  rw [h.type, h.data]
  by_cases ht : a.type = typeUuid
  · rw [if_pos ht, h.uuid ht]
  · rw [if_neg ht, h.other ht]

theorem bytes_length (a : Ask) : a.bytes.length = 8 + (a.uuid.getD []).length + a.payload.length := by
  unfold Ask.bytes
  simp only [List.length_append, be_length]

theorem uuid_length {known : Nat → Bool} {a : Ask} {x : Atom} (h : Is a x) (ho : a.Ok known) :
    (a.uuid.getD []).length = if a.type = typeUuid then 16 else 0 := by
  by_cases ht : a.type = typeUuid
  · rw [if_pos ht, h.uuid ht]; exact ho.uuid _ (h.uuid ht)
  · rw [if_neg ht, h.other ht]; rfl

theorem size_eq {known : Nat → Bool} {a : Ask} {x : Atom} (h : Is a x) (ho : a.Ok known) : size x = a.bytes.length := by
  have h1 := ho.size
  have h2 := bytes_length a
  have h3 := uuid_length h ho
  unfold size
  rw [h.type, h.data, h2, h3]
  rw [h2, h3] at h1
  split <;> simp_all <;> omega

theorem run_ser {known : Nat → Bool} {a : Ask} {x : Atom} (h : Is a x) (ho : a.Ok known) : runW (size x) (ser x) = .ok a.bytes := by
  have hs := size_eq h ho
  have hb := bytes_length a
  have hp := ho.type
  unfold ser
  rw [if_neg (by rw [h.type, hs]; omega)]
  have hu : Emits (if x.type = typeUuid then putBytes x.uuid else W.skip) (a.uuid.getD []) := by
    rw [h.type]
    by_cases ht : a.type = typeUuid
    · rw [if_pos ht, h.uuid ht]; exact emits_bytes _
    · rw [if_neg ht, h.other ht]; exact emits_skip
  have hd : EmitsFull (putBytes x.data ;; W.assertFull) a.payload := by
    rw [h.data]
    exact (emits_bytes _).thenAssert
  have : EmitsFull (serBase (size x) x.type ;; (if x.type = typeUuid then putBytes x.uuid else W.skip) ;; putBytes x.data ;; W.assertFull) a.bytes := by
    have := (emits_serBase (size x) x.type).then (hu.then hd)
    rw [h.type, hs, hb] at this
    unfold Ask.bytes
    simp only [List.append_assoc] at this ⊢
    rw [h.type, hs, hb]
    exact this
  exact this.runW hs.symm (by rw [hs]; exact ho.size)

/-- A box as it is read. -/
def Ask.kid (a : Ask) : Ent.Kid Atom := ⟨a.type, ⟨a.type, a.uuid.getD [], a.payload⟩, a.bytes⟩

theorem is_kid (a : Ask) : Is a a.kid.val :=
  ⟨rfl, rfl, fun ht => by
    show a.uuid = some (a.uuid.getD [])
    rw [(is_call a).uuid ht]
    rfl, (is_call a).other⟩

theorem run_parse_eq {known : Nat → Bool} {a : Ask} (ho : a.Ok known) (rest : Bytes) :
    ∃ hd : Hdr, hd.type = a.type ∧ hd.size = a.bytes.length ∧ parseAtom (parse known) (a.bytes ++ rest) = .ok (a.kid.val, hd, rest) := by
  have hb := bytes_length a
  have hul := uuid_length (is_call a) ho
  have hsz := ho.size
  have hin : a.bytes ++ rest = be 4 (if false = true then 0 else a.bytes.length) ++ be 4 a.type ++ a.uuid.getD [] ++ (a.payload ++ rest) := by
    rw [hb]
    unfold Ask.bytes
    simp
  have hh := Tree.parseHeader_fwd (size := a.bytes.length) (type := a.type) (zero := false) (uuid := a.uuid.getD []) ho.size ho.type.2 hul (a.payload ++ rest)
    (by omega) (by simp; omega) (by simp)
  refine ⟨⟨a.bytes.length, a.type, a.uuid.getD [], 0, 8 + (a.uuid.getD []).length⟩, rfl, rfl, ?_⟩
  unfold parseAtom
  rw [hin, hh]
  have hbody : parse known ⟨a.bytes.length, a.type, a.uuid.getD [], 0, 8 + (a.uuid.getD []).length⟩ ⟨a.payload ++ rest, 8 + (a.uuid.getD []).length⟩ =
      .ok (⟨a.type, a.uuid.getD [], a.payload⟩, ⟨rest, 8 + (a.uuid.getD []).length + a.payload.length⟩) := by
    unfold parse
    simp only [ho.free, Bool.false_eq_true, if_false]
    have hb' : ParsesAt (P.bytesRead >>= fun br => getBytes w32(a.bytes.length + (4294967296 - br)) >>= fun d =>
        (pure ⟨a.type, a.uuid.getD [], d⟩ : P Atom)) (8 + (a.uuid.getD []).length) a.payload ⟨a.type, a.uuid.getD [], a.payload⟩ := by
      refine parsesAt_bytesRead ?_
      refine ParsesAt.bind_nil ((parses_getBytes (bs := a.payload) (by omega)).at _) ?_
      exact (parses_pure _).at _
    exact hb' rest
  simp only [hbody]
  have hlen : (be 4 (if false = true then 0 else a.bytes.length) ++ be 4 a.type ++ a.uuid.getD [] ++ (a.payload ++ rest)).length =
      a.bytes.length + rest.length := by
    rw [← hin, List.length_append]
  rw [hlen, if_neg (by omega)]
  have : a.bytes.length - (a.bytes.length + rest.length - rest.length) = 0 := by omega
  rw [this]
  rfl

theorem run_parse {known : Nat → Bool} {a : Ask} (ho : a.Ok known) (rest : Bytes) :
    ∃ y hd, Is a y ∧ parseAtom (parse known) (a.bytes ++ rest) = .ok (y, hd, rest) := by
  obtain ⟨hd, _, _, h⟩ := run_parse_eq ho rest
  exact ⟨_, hd, is_kid a, h⟩

/-- Boxes and what they are, one by one. -/
inductive All : List Ask → List Atom → Prop where
  | nil : All [] []
  | cons {a : Ask} {x : Atom} {as : List Ask} {xs : List Atom} : Is a x → All as xs → All (a :: as) (x :: xs)

theorem all_call (as : List Ask) : All as (as.map Ask.call) := by
  induction as with
  | nil => exact .nil
  | cons a as ih => exact .cons (is_call a) ih

theorem all_get {as : List Ask} {xs : List Atom} (h : All as xs) : xs.map Foreign.get = as.map fun a => (a.type, a.uuid, a.payload) := by
  induction h with
  | nil => rfl
  | cons hi _ ih => rw [List.map_cons, hi.get, ih]; rfl

theorem write_all {known : Nat → Bool} {as : List Ask} {xs : List Atom} (h : All as xs) (ho : ∀ a ∈ as, a.Ok known) :
    write xs = .ok (as.flatMap Ask.bytes) := by
  induction h with
  | nil => rfl
  | cons hi _ ih =>
    unfold write
    rw [run_ser hi (ho _ (by simp)), ih (fun a ha => ho a (by simp [ha]))]
    rfl

theorem read_all {known : Nat → Bool} {as : List Ask} {xs : List Atom} (h : All as xs) (ho : ∀ a ∈ as, a.Ok known) :
    ∀ n, (as.flatMap Ask.bytes).length < n → ∃ ys, All as ys ∧ read known n (as.flatMap Ask.bytes) = .ok ys := by
  induction h with
  | nil =>
    intro n hn
    obtain ⟨n, rfl⟩ : ∃ m, n = m + 1 := ⟨n - 1, by omega⟩
    exact ⟨[], .nil, rfl⟩
  | @cons a x as xs hi _ ih =>
    intro n hn
    obtain ⟨n, rfl⟩ : ∃ m, n = m + 1 := ⟨n - 1, by omega⟩
    have hb := bytes_length a
    simp only [List.flatMap_cons, List.length_append] at hn
    obtain ⟨y, hd, hy, hp⟩ := run_parse (ho a (by simp)) (as.flatMap Ask.bytes)
    obtain ⟨ys, hys, hr⟩ := ih (fun b hb => ho b (by simp [hb])) n (by omega)
    refine ⟨y :: ys, .cons hy hys, ?_⟩
    unfold read
    rw [List.flatMap_cons, if_neg (by simp only [List.length_append]; omega), hp]
    show (read known n (as.flatMap Ask.bytes)).bind _ = _
    rw [hr]
    rfl

theorem files_all {known : Nat → Bool} {as : List Ask} (ho : ∀ a ∈ as, a.Ok known) (n : Nat) : ∀ xs, All as xs →
    ∃ ys, All as ys ∧ files known n xs = .ok ys := by
  induction n with
  | zero => intro xs h; exact ⟨xs, h, rfl⟩
  | succ n ih =>
    intro xs h
    obtain ⟨ys, hys, hr⟩ := read_all h ho ((as.flatMap Ask.bytes).length + 1) (by omega)
    obtain ⟨zs, hzs, hf⟩ := ih ys hys
    refine ⟨zs, hzs, ?_⟩
    unfold files
    rw [write_all h ho]
    show (read known ((as.flatMap Ask.bytes).length + 1) (as.flatMap Ask.bytes)).bind _ = _
    rw [hr]
    exact hf

theorem short_ser {z : Nat} (hz : z ≤ 7) (t : Nat) (w : W) : runW z (serBase z t ;; w) = .err .ioErr := by
  unfold runW W.seq
  rw [emits_serBase z t ⟨[], z⟩ (Nat.zero_le _) (by simp [be_length]), if_neg (by simp [be_length]; omega)]
  rfl

/-! ## The property -/

/-- **C105.** Boxes of the caller, with types or identifiers of its own, are told by `MP4GetForeignAtom` as they were asked for, after they were written to
a file and read any number of times. -/
theorem c105_files (known : Nat → Bool) (as : List Ask) (h : ∀ a ∈ as, a.Ok known) (n : Nat) :
    ∃ l, files known n (as.map Ask.call) = .ok l ∧ l.map Foreign.get = as.map fun a => (a.type, a.uuid, a.payload) := by
  obtain ⟨ys, hys, hf⟩ := files_all h n _ (all_call as)
  exact ⟨ys, hf, all_get hys⟩

/-- **C105.** In the file they have the layout of ISO/IEC 14496-12, 4.2. -/
theorem c105_bytes (known : Nat → Bool) (as : List Ask) (h : ∀ a ∈ as, a.Ok known) : write (as.map Ask.call) = .ok (as.flatMap Ask.bytes) :=
  write_all (all_call as) h

/-- **C105.** Any such bytes are read as the boxes: also those another writer made. -/
theorem c105_read (known : Nat → Bool) (as : List Ask) (h : ∀ a ∈ as, a.Ok known) :
    ∃ l, read known ((as.flatMap Ask.bytes).length + 1) (as.flatMap Ask.bytes) = .ok l ∧
      l.map Foreign.get = as.map fun a => (a.type, a.uuid, a.payload) := by
  obtain ⟨ys, hys, hr⟩ := read_all (all_call as) h _ (Nat.lt_succ_self _)
  exact ⟨ys, hr, all_get hys⟩

/-- **C105.** A payload with which the size of the box overflows is not written. (The size after the overflow may not be 0 or 1: there the code asserts, or
takes it for the large form.) -/
theorem c105_too_large (t : Nat) (d : Bytes) (h0 : t ≠ 0) (hu : t ≠ fcc 'u' 'u' 'i' 'd') (hd : 2 ^ 32 - 6 ≤ d.length) (hd' : d.length < 2 ^ 32) :
    write [(Ask.plain t d).call] = .err .ioErr := by
  rw [type_uuid] at hu
  have hs : size (newForeign t d) = 8 + d.length - 4294967296 := by
    unfold size newForeign
    simp only [if_neg hu]
    omega
  show (runW (size (newForeign t d)) (ser (newForeign t d))).bind _ = _
  have : runW (size (newForeign t d)) (ser (newForeign t d)) = .err .ioErr := by
    unfold ser
    rw [if_neg (by rw [hs]; show ¬ (t = 0 ∨ _); omega)]
    exact short_ser (by rw [hs]; omega) _ _
  rw [this]
  rfl

/-- The class of these boxes, for the boxes they are put into: sample entries, meta boxes and others (C71, C83 and more are for any class). -/
def boxes (known : Nat → Bool) : Ent.Class Atom := ⟨parse known, size, ser⟩

/-- **C105.** Such boxes are boxes of the kind that the theorems about boxes in other boxes ask for (`Family`): each survives by itself, `uuid` boxes too.
The box that the caller made is written as the same bytes as the one that is read. -/
theorem c105_inside (known : Nat → Bool) (as : List Ask) (h : ∀ a ∈ as, a.Ok known) (hd : ∀ a ∈ as, ¬ Ent.Dropped a.type) :
    Ent.Family (boxes known) (as.map Ask.kid) ∧
    ∀ a ∈ as, (boxes known).size a.call = a.bytes.length ∧ runW ((boxes known).size a.call) ((boxes known).ser a.call) = .ok a.bytes ∧
      Foreign.get a.kid.val = Foreign.get a.call := by
  refine ⟨fun k hk => ?_, fun a ha => ⟨size_eq (is_call a) (h a ha), run_ser (is_call a) (h a ha), ?_⟩⟩
  · obtain ⟨a, ha, rfl⟩ := List.mem_map.1 hk
    have hi := is_kid a
    refine ⟨⟨size_eq hi (h a ha), run_ser hi (h a ha), ?_, fun rest => run_parse_eq (h a ha) rest⟩, hd a ha⟩
    show 8 ≤ a.bytes.length
    rw [bytes_length]
    omega
  · rw [(is_kid a).get, (is_call a).get]

/-! ## Examples -/

/-- A box with a type, an empty one, one with an identifier, and one of type `uuid` without one. -/
def sample : List Ask :=
  [.plain (fcc 'a' 'b' 'c' 'd') [1, 2, 3], .plain (fcc 'e' 'f' 'g' 'h') [], .ident (List.replicate 16 7) [4, 5], .plain (fcc 'u' 'u' 'i' 'd') [6]]

theorem plain_none {t : Nat} (h : t ≠ fcc 'u' 'u' 'i' 'd') (d : Bytes) : (Ask.plain t d).uuid = none := if_neg h

theorem plain_uuid (d : Bytes) : (Ask.plain (fcc 'u' 'u' 'i' 'd') d).uuid = some (List.replicate 16 0) := by
  simp only [Ask.uuid, if_true]

theorem sample_ok : ∀ a ∈ sample, a.Ok (fun t => t == fcc 'm' 'o' 'o' 'v') := by
  intro a ha
  simp only [sample, List.mem_cons, List.not_mem_nil, or_false] at ha
  rcases ha with rfl | rfl | rfl | rfl
  · exact ⟨by decide, by decide, fun u hu => absurd ((plain_none (by decide) _).symm.trans hu) (fun e => nomatch e), by decide⟩
  · exact ⟨by decide, by decide, fun u hu => absurd ((plain_none (by decide) _).symm.trans hu) (fun e => nomatch e), by decide⟩
  · exact ⟨by decide, by decide, fun u hu => by cases hu; rfl, by decide⟩
  · refine ⟨by decide, by decide, fun u hu => ?_, by decide⟩
    rw [plain_uuid] at hu
    rw [← Option.some.inj hu, List.length_replicate]

example : ∃ l, files (fun t => t == fcc 'm' 'o' 'o' 'v') 3 (sample.map Ask.call) = .ok l ∧
    l.map Foreign.get = sample.map fun a => (a.type, a.uuid, a.payload) := c105_files _ _ sample_ok 3

example : Ent.Family (boxes fun t => t == fcc 'm' 'o' 'o' 'v') (sample.map Ask.kid) :=
  (c105_inside _ _ sample_ok (by decide)).1

example : write (sample.map Ask.call) = .ok ([0, 0, 0, 11, 97, 98, 99, 100, 1, 2, 3] ++ [0, 0, 0, 8, 101, 102, 103, 104] ++
    ([0, 0, 0, 26, 117, 117, 105, 100] ++ List.replicate 16 7 ++ [4, 5]) ++ ([0, 0, 0, 25, 117, 117, 105, 100] ++ List.replicate 16 0 ++ [6])) := by
  rw [c105_bytes _ _ sample_ok]
  decide +kernel

example : write [(Ask.plain (fcc 'a' 'b' 'c' 'd') (List.replicate (2 ^ 32 - 1) 0)).call] = .err .ioErr :=
  c105_too_large _ _ (by decide) (by decide) (by rw [List.length_replicate]; decide) (by rw [List.length_replicate]; decide)

end Verif.Foreign
