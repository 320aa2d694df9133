import Verif.Lemmas.Movie

/-!
# C27: files with several media data boxes read back the right bytes
-/

namespace Verif.Movie

/-- `t` is the media data box parsed at position `pos` of the file. -/
def ParsedAt (file : Bytes) (pos : Nat) (t : Mdat.T) : Prop :=
  t.dataSize ≠ 0 ∧ ∃ hd rest, parseAtom (Mdat.parseBody pos) (file.drop pos) = .ok (t, hd, rest)

/-- Boxes in file order, each after the data of the one before. -/
def InOrder (file : Bytes) : Nat → List Mdat.T → Prop
  | _, [] => True
  | lo, t :: ts => ∃ pos, lo ≤ pos ∧ ParsedAt file pos t ∧ InOrder file (t.dataOffset + t.dataSize) ts

/-- Where position `o` of the file is in the data of the given boxes laid end to end, the first of
which begins at `acc`; `o` itself if it is in none of them. -/
def place : List Mdat.T → Nat → Nat → Nat
  | [], _, o => o
  | t :: ts, acc, o =>
    if t.dataOffset ≤ o ∧ o < t.dataOffset + t.dataSize then acc + (o - t.dataOffset)
    else place ts (acc + t.dataSize) o

theorem parseAtom_inv {body : Hdr → P Mdat.T} {inp rest : Bytes} {t : Mdat.T} {hd : Hdr}
    (p : parseAtom body inp = .ok (t, hd, rest)) :
    ∃ r s, parseHeader inp = .ok (hd, r) ∧ body hd ⟨r, hd.hlen⟩ = .ok (t, s) := by
  unfold parseAtom at p
  cases e1 : parseHeader inp with
  | err e => rw [e1] at p; cases p
  | ub => rw [e1] at p; cases p
  | ok hr =>
    obtain ⟨h', r⟩ := hr
    rw [e1] at p
    dsimp only at p
    cases e2 : body h' ⟨r, h'.hlen⟩ with
    | err e => rw [e2] at p; cases p
    | ub => rw [e2] at p; cases p
    | ok ts =>
      obtain ⟨t', s⟩ := ts
      rw [e2] at p
      dsimp only at p
      injection p with p
      injection p with pa pb
      injection pb with pb pc
      subst pa
      subst pb
      exact ⟨r, s, rfl, e2⟩

theorem parseBody_offset {off : Nat} {h : Hdr} {s s' : PS} {t : Mdat.T}
    (e : Mdat.parseBody off h s = .ok (t, s')) (hne : t.dataSize ≠ 0) : t.dataOffset = off + s.read := by
  unfold Mdat.parseBody at e
  generalize Mdat.bytesToRead h s.read = n at e
  by_cases h1 : n >>> 31 > 0
  · rw [if_pos h1, P.bind_apply] at e
    unfold Mdat.skipData at e
    by_cases h2 : s.rest.length < n
    · rw [if_pos h2] at e; cases e
    · rw [if_neg h2] at e
      injection e with e
      injection e with e _
      subst e
      rfl
  · rw [if_neg h1] at e
    by_cases h3 : n > 0
    · rw [if_pos h3, P.bind_apply] at e
      unfold getBytes at e
      by_cases h2 : s.rest.length < n
      · rw [if_pos h2] at e; cases e
      · rw [if_neg h2] at e
        injection e with e
        injection e with e _
        subst e
        rfl
    · rw [if_neg h3] at e
      injection e with e
      injection e with e _
      subst e
      exact absurd rfl hne

/-- What is known about a parsed box: its data are in the file where its offset says. -/
theorem ParsedAt.data {file : Bytes} {pos : Nat} {t : Mdat.T} (h : ParsedAt file pos t) :
    pos ≤ t.dataOffset ∧ t.dataOffset + t.dataSize ≤ file.length ∧
      Mdat.Holds t ((file.drop t.dataOffset).take t.dataSize) ∧
      Mdat.Rep t ((file.drop t.dataOffset).take t.dataSize) := by
  obtain ⟨h0, hd, rest, e⟩ := h
  have h1 := Mdat.Holds.parsed e
  have h2 := Mdat.rep_parsed e
  obtain ⟨r, s, _, e2⟩ := parseAtom_inv e
  have h3 := parseBody_offset e2 h0
  dsimp only at h3
  rw [List.drop_drop, ← h3] at h1 h2
  have h4 := h2.size
  rw [List.length_take, List.length_drop] at h4
  exact ⟨by omega, by omega, h1, h2⟩

theorem zipWith_zipWith {α β : Type} (f g : α → β → β) : ∀ (ch : List α) (L : List β),
    List.zipWith f ch (List.zipWith g ch L) = List.zipWith (fun c o => f c (g c o)) ch L := by
  intro ch
  induction ch with
  | nil => intro L; rfl
  | cons c ch ih =>
    intro L
    cases L with
    | nil => rfl
    | cons o L => simp only [List.zipWith_cons_cons, ih]

theorem zipWith_congr {α β γ : Type} {f g : α → β → γ} : ∀ (ch : List α) (L : List β),
    (∀ c o, o ∈ L → f c o = g c o) → List.zipWith f ch L = List.zipWith g ch L := by
  intro ch
  induction ch with
  | nil => intro L _; rfl
  | cons c ch ih =>
    intro L h
    cases L with
    | nil => rfl
    | cons o L =>
      simp only [List.zipWith_cons_cons]
      rw [h c o (by simp), ih L fun c o ho => h c o (by simp [ho])]

/-- Sum of the sizes. -/
def total (done : List Mdat.T) : Nat := (done.map (·.dataSize)).sum

theorem place_append (done : List Mdat.T) (t : Mdat.T) : ∀ (acc o : Nat),
    place (done ++ [t]) acc o =
      if ∃ u ∈ done, u.dataOffset ≤ o ∧ o < u.dataOffset + u.dataSize then place done acc o
      else if t.dataOffset ≤ o ∧ o < t.dataOffset + t.dataSize then acc + total done + (o - t.dataOffset) else o := by
  induction done with
  | nil => intro acc o; simp [place, total]
  | cons u done ih =>
    intro acc o
    simp only [List.cons_append, place]
    by_cases hu : u.dataOffset ≤ o ∧ o < u.dataOffset + u.dataSize
    · rw [if_pos hu, if_pos ⟨u, by simp, hu⟩, if_pos hu]
    · rw [if_neg hu, if_neg hu, ih]
      have : (∃ v ∈ u :: done, v.dataOffset ≤ o ∧ o < v.dataOffset + v.dataSize) ↔
          (∃ v ∈ done, v.dataOffset ≤ o ∧ o < v.dataOffset + v.dataSize) := by
        simp only [List.mem_cons, exists_eq_or_imp, hu, false_or]
      simp only [this]
      have e : acc + u.dataSize + total done = acc + total (u :: done) := by
        simp only [total, List.map_cons, List.sum_cons]; omega
      rw [e]

theorem place_none (done : List Mdat.T) : ∀ (acc o : Nat),
    ¬ (∃ u ∈ done, u.dataOffset ≤ o ∧ o < u.dataOffset + u.dataSize) → place done acc o = o := by
  induction done with
  | nil => intro acc o _; rfl
  | cons u done ih =>
    intro acc o h
    unfold place
    rw [if_neg fun hu => h ⟨u, by simp, hu⟩, ih _ _ fun ⟨v, hv, h'⟩ => h ⟨v, by simp [hv], h'⟩]

theorem place_lt (done : List Mdat.T) : ∀ (acc o : Nat),
    (∃ u ∈ done, u.dataOffset ≤ o ∧ o < u.dataOffset + u.dataSize) → place done acc o < acc + total done := by
  induction done with
  | nil => intro acc o h; obtain ⟨u, hu, _⟩ := h; simp at hu
  | cons u done ih =>
    intro acc o h
    simp only [total, List.map_cons, List.sum_cons, place]
    split
    · next hu => omega
    · next hu =>
      have := ih (acc + u.dataSize) o (by
        obtain ⟨v, hv, h'⟩ := h
        rcases List.mem_cons.mp hv with rfl | hv
        · exact absurd h' hu
        · exact ⟨v, hv, h'⟩)
      simp only [total] at this
      omega

/-- Bytes at a place. -/
theorem place_bytes (file : Bytes) (done : List Mdat.T)
    (hin : ∀ t ∈ done, t.dataOffset + t.dataSize ≤ file.length) (pre : Bytes) : ∀ (lo o : Nat),
    (∀ t ∈ done, lo ≤ t.dataOffset) →
    List.Pairwise (fun a b : Mdat.T => a.dataOffset + a.dataSize ≤ b.dataOffset) done →
    ∀ u ∈ done, u.dataOffset ≤ o → ∀ k, 0 < k → o + k ≤ u.dataOffset + u.dataSize →
      place done pre.length o + k ≤ (pre ++ done.flatMap fun t => (file.drop t.dataOffset).take t.dataSize).length ∧
      ((pre ++ done.flatMap fun t => (file.drop t.dataOffset).take t.dataSize).drop (place done pre.length o)).take k =
        (file.drop o).take k := by
  induction done generalizing pre with
  | nil => intro lo o _ _ u hu; simp at hu
  | cons t done ih =>
    intro lo o hlo hp u hu h1 k hk h2
    have ht := hin t (by simp)
    have hlen : ((file.drop t.dataOffset).take t.dataSize).length = t.dataSize := by
      rw [List.length_take, List.length_drop]; omega
    by_cases hc : t.dataOffset ≤ o ∧ o < t.dataOffset + t.dataSize
    · have hut : u = t := by
        rcases List.mem_cons.mp hu with h | h
        · exact h
        · have := (List.pairwise_cons.mp hp).1 u h; omega
      subst hut
      simp only [place, List.flatMap_cons]
      rw [if_pos hc]
      refine ⟨by simp only [List.length_append, hlen]; omega, ?_⟩
      rw [List.drop_length_add_append, List.drop_append_of_le_length (by rw [hlen]; omega),
        List.take_append_of_le_length (by rw [List.length_drop, hlen]; omega),
        List.drop_take, List.drop_drop, List.take_take, Nat.min_eq_left (by omega)]
      congr 2
      omega
    · have hud : u ∈ done := by
        rcases List.mem_cons.mp hu with h | h
        · subst h; omega
        · exact h
      simp only [place, List.flatMap_cons]
      rw [if_neg hc]
      have := ih (fun t h => hin t (by simp [h])) (pre ++ (file.drop t.dataOffset).take t.dataSize) 0 o
        (fun _ _ => Nat.zero_le _) (List.pairwise_cons.mp hp).2 u hud h1 k hk h2
      rw [List.length_append, hlen, List.append_assoc] at this
      exact this

/-- State during merging: the boxes `done` have been merged. -/
structure Inv (file : Bytes) (ts : List Track) (done : List Mdat.T) (m : Mdat.T) (cur : List Track) : Prop where
  holds : Mdat.Holds m (done.flatMap fun t => (file.drop t.dataOffset).take t.dataSize)
  len : cur.length = ts.length
  tracks : ∀ (i : Nat) (t t' : Track), ts[i]? = some t → cur[i]? = some t' → SameBut t t' ∧ t'.WF ∧
    t.chunks.length = t.offsets.length ∧
    t'.offsets = List.zipWith (fun c o => if t.inFile c.2 then place done 0 o else o) t.chunks t.offsets

theorem flatMap_total (file : Bytes) (done : List Mdat.T)
    (hin : ∀ t ∈ done, t.dataOffset + t.dataSize ≤ file.length) :
    (done.flatMap fun t => (file.drop t.dataOffset).take t.dataSize).length = total done := by
  induction done with
  | nil => rfl
  | cons t done ih =>
    have := hin t (by simp)
    simp only [List.flatMap_cons, List.length_append, total, List.map_cons, List.sum_cons, List.length_take,
      List.length_drop]
    rw [ih fun t h => hin t (by simp [h])]
    simp only [total]
    omega

/-- Relocating one box more, on the list of offsets. -/
theorem step_offsets (inFile : Nat → Bool) (done : List Mdat.T) (t : Mdat.T) (delta : Int)
    (hd : delta = (total done : Int) - t.dataOffset) (hle : total done ≤ t.dataOffset)
    (ch : List (Nat × Nat)) (L : List Nat) :
    List.zipWith (Stco.relocated inFile t.dataOffset (t.dataSize + t.dataOffset) delta) ch
      (List.zipWith (fun c o => if inFile c.2 then place done 0 o else o) ch L) =
    List.zipWith (fun c o => if inFile c.2 then place (done ++ [t]) 0 o else o) ch L := by
  rw [zipWith_zipWith]
  apply zipWith_congr
  intro c o _
  unfold Stco.relocated
  by_cases hf : inFile c.2 = true
  · simp only [hf, if_true]
    rw [place_append]
    by_cases hp : ∃ u ∈ done, u.dataOffset ≤ o ∧ o < u.dataOffset + u.dataSize
    · rw [if_pos hp, if_neg]
      have := place_lt done 0 o hp
      omega
    · rw [if_neg hp, place_none done 0 o hp]
      by_cases ht : t.dataOffset ≤ o ∧ o < t.dataOffset + t.dataSize
      · rw [if_pos ht, if_pos ⟨trivial, by omega, by omega⟩]
        omega
      · rw [if_neg ht, if_neg (by omega)]
  · simp [hf]

/-- Relocating one box more, all tracks. -/
theorem step_tracks {file : Bytes} {ts cur : List Track} {done : List Mdat.T} {m t : Mdat.T}
    (h : Inv file ts done m cur) (hle : total done ≤ t.dataOffset)
    (hfit : t.dataOffset + t.dataSize < 2 ^ 31) :
    ∃ cur', moved cur t.dataOffset (t.dataSize + t.dataOffset) ((total done : Int) - t.dataOffset) = .ok cur' ∧
      cur'.length = ts.length ∧
      ∀ (i : Nat) (t0 t' : Track), ts[i]? = some t0 → cur'[i]? = some t' → SameBut t0 t' ∧ t'.WF ∧
        t0.chunks.length = t0.offsets.length ∧
        t'.offsets = List.zipWith (fun c o => if t0.inFile c.2 then place (done ++ [t]) 0 o else o)
          t0.chunks t0.offsets := by
  have get0 : ∀ i, i < ts.length → ∃ t, ts[i]? = some t := fun i hi => ⟨_, List.getElem?_eq_getElem hi⟩
  have getc : ∀ i, i < ts.length → ∃ t, cur[i]? = some t := fun i hi =>
    ⟨_, List.getElem?_eq_getElem (by rw [h.len]; exact hi)⟩
  obtain ⟨cur', m1, m2, m3⟩ := mapRes_ok
    (f := trackMoved t.dataOffset (t.dataSize + t.dataOffset) ((total done : Int) - t.dataOffset))
    (R := fun _ t1 t2 => SameBut t1 t2 ∧
      t2.offsets = List.zipWith (Stco.relocated t1.inFile t.dataOffset (t.dataSize + t.dataOffset)
        ((total done : Int) - t.dataOffset)) t1.chunks t1.offsets ∧
      t1.chunks.length = t1.offsets.length ∧ t2.WF) cur 0
    (fun i t1 ht1 => by
      obtain ⟨t0, ht0⟩ := get0 i (by have := (List.getElem?_eq_some_iff.mp ht1).1; rw [← h.len]; exact this)
      exact trackMoved_ok (h.tracks i t0 t1 ht0 ht1).2.1 _ _ _ (fun o _ _ => by omega))
  have m3 : ∀ (i : Nat) (t t1 : Track), cur[i]? = some t → cur'[i]? = some t1 → _ := m3
  refine ⟨cur', m1, by rw [m2, h.len], ?_⟩
  intro i t0 t2 ht0 ht2
  obtain ⟨t1, ht1⟩ := getc i (List.getElem?_eq_some_iff.mp ht0).1
  obtain ⟨a1, a2, a3, a4⟩ := h.tracks i t0 t1 ht0 ht1
  obtain ⟨c1, c2, c3, c4⟩ := m3 i t1 t2 ht1 ht2
  refine ⟨⟨by rw [c1.stsd, a1.stsd], by rw [c1.dref, a1.dref], by rw [c1.es, a1.es],
    by rw [c1.version, a1.version], by rw [c1.flags, a1.flags], by rw [c1.count, a1.count]⟩, c4, a3, ?_⟩
  rw [c2, a1.inFile, a1.chunks, a4]
  exact step_offsets _ _ _ _ rfl hle _ _

theorem mergeLoop_ok (file : Bytes) (hfile : file.length < 2 ^ 31) (junk : Nat → Nat → UInt8) (ts : List Track) :
    ∀ (more : List Mdat.T) (k : Nat) (done : List Mdat.T) (m : Mdat.T) (cur : List Track) (lo : Nat),
    Inv file ts done m cur → InOrder file lo more → total done ≤ lo →
    (∀ u ∈ done, u.dataOffset + u.dataSize ≤ lo) →
    (∀ u ∈ done, u.dataOffset + u.dataSize ≤ file.length) →
    ∃ m' ts', mergeLoop junk k more m cur = .ok (m', ts') ∧ Inv file ts (done ++ more) m' ts' := by
  intro more
  induction more with
  | nil => intro k done m cur lo h _ _ _ _; exact ⟨m, cur, rfl, by rw [List.append_nil]; exact h⟩
  | cons t more ih =>
    intro k done m cur lo h ho hlo hdone hin
    obtain ⟨pos, hpos, hpa, hrest⟩ := ho
    obtain ⟨d1, d2, d3, d4⟩ := hpa.data
    have hdone' : ∀ u ∈ done, u.dataOffset + u.dataSize ≤ t.dataOffset := fun u hu => by
      have := hdone u hu; omega
    obtain ⟨cur', e1, e2, e3⟩ := step_tracks h (t := t) (by omega) (by omega)
    have hlen := flatMap_total file done hin
    have hrep := h.holds.bound (by rw [hlen]; omega)
    have hms := hrep.size
    rw [hlen] at hms
    have hlt : ((file.drop t.dataOffset).take t.dataSize).length = t.dataSize := by
      rw [List.length_take, List.length_drop]; omega
    have hsum : ((done.flatMap fun t => (file.drop t.dataOffset).take t.dataSize) ++
        (file.drop t.dataOffset).take t.dataSize).length < 4294967296 := by
      rw [List.length_append, hlen, hlt]; omega
    obtain ⟨m', a1, a2⟩ : ∃ m', Mdat.addMdat (junk k) m t = .ok m' ∧
        Mdat.Holds m' ((done.flatMap fun t => (file.drop t.dataOffset).take t.dataSize) ++
          (file.drop t.dataOffset).take t.dataSize) := by
      rcases Mdat.addMdat_ok (junk k) hrep d4 (by omega) with ⟨hx, _⟩ | ⟨m', a1, _⟩
      · omega
      · exact ⟨m', a1, Mdat.Holds.merge h.holds d3 a1⟩
    have hinv : Inv file ts (done ++ [t]) m' cur' := by
      refine ⟨?_, e2, e3⟩
      simpa using a2
    have htot : total (done ++ [t]) = total done + t.dataSize := by simp [total]
    obtain ⟨m2, ts2, f1, f2⟩ := ih (k + 1) (done ++ [t]) m' cur' (t.dataOffset + t.dataSize) hinv hrest
      (by rw [htot]; omega)
      (by
        intro u hu
        rcases List.mem_append.mp hu with h | h
        · have := hdone' u h; omega
        · simp at h; subst h; omega)
      (by
        intro u hu
        rcases List.mem_append.mp hu with h | h
        · exact hin u h
        · simp at h; subst h; exact d2)
    refine ⟨m2, ts2, ?_, by rw [List.append_assoc] at f2; exact f2⟩
    unfold mergeLoop
    have w1 : t.dataOffset % 4294967296 = t.dataOffset := Nat.mod_eq_of_lt (by omega)
    have w2 : (t.dataSize + t.dataOffset) % 18446744073709551616 = t.dataSize + t.dataOffset :=
      Nat.mod_eq_of_lt (by omega)
    have w3 : s32 ((m.dataSize + (18446744073709551616 - t.dataOffset)) % 18446744073709551616 % 4294967296) =
        (total done : Int) - t.dataOffset := by
      rw [hms]
      unfold s32
      split <;> omega
    rw [w1, w2, w3, e1]
    simp only [Res.bind]
    rw [a1]
    exact f1

theorem inOrder_pairwise {file : Bytes} : ∀ (ms : List Mdat.T) (lo : Nat), InOrder file lo ms →
    (∀ t ∈ ms, lo ≤ t.dataOffset ∧ t.dataOffset + t.dataSize ≤ file.length) ∧
    List.Pairwise (fun a b : Mdat.T => a.dataOffset + a.dataSize ≤ b.dataOffset) ms := by
  intro ms
  induction ms with
  | nil => intro lo _; simp
  | cons t ms ih =>
    intro lo h
    obtain ⟨pos, h1, h2, h3⟩ := h
    obtain ⟨d1, d2, _, _⟩ := h2.data
    obtain ⟨i1, i2⟩ := ih _ h3
    refine ⟨?_, List.pairwise_cons.mpr ⟨fun u hu => (i1 u hu).1, i2⟩⟩
    intro u hu
    rcases List.mem_cons.mp hu with rfl | hu
    · exact ⟨by omega, d2⟩
    · have := i1 u hu; exact ⟨by omega, this.2⟩

/-- **C27.** A file smaller than `2^31` bytes has media data boxes (with data) at increasing,
non-overlapping positions: `first` and `more`; `ts` are the tracks of its movie box. Merging
succeeds, and afterwards for every chunk of every track, at offset `o` of the file:
* if the chunk is in this file and `o` is in the data of one of the boxes, then reading any `k`
  bytes at the chunk's new offset from the merged data gives the `k` bytes at `o` of the file, as
  far as the data of that box reach;
* if the chunk is in another file, or `o` is in none of the boxes, the offset is unchanged. -/
theorem c27_merge_keeps_bytes (file : Bytes) (hfile : file.length < 2 ^ 31)
    (first : Mdat.T) (more : List Mdat.T) (ho : InOrder file 0 (first :: more))
    (ts : List Track) (hwf : ∀ t ∈ ts, t.WF) (junk : Nat → Nat → UInt8) :
    ∃ m ts', merge junk first more ts = .ok (m, ts') ∧ ts'.length = ts.length ∧
      ∀ (i : Nat) (t t' : Track), ts[i]? = some t → ts'[i]? = some t' → SameBut t t' ∧
        ∀ (c : Nat) (d : Nat × Nat) (o : Nat), t.chunks[c]? = some d → t.offsets[c]? = some o →
          ∃ o', t'.offsets[c]? = some o' ∧
            (∀ u ∈ first :: more, t.inFile d.2 = true → u.dataOffset ≤ o →
              ∀ k, 0 < k → o + k ≤ u.dataOffset + u.dataSize →
                Mdat.copyData m o' k = .ok ((file.drop o).take k)) ∧
            ((t.inFile d.2 = false ∨ ∀ u ∈ first :: more, ¬ (u.dataOffset ≤ o ∧ o < u.dataOffset + u.dataSize)) →
              o' = o) := by
  obtain ⟨hall, hpw⟩ := inOrder_pairwise _ _ ho
  obtain ⟨pos, hpos, hpa, hrest⟩ := ho
  obtain ⟨d1, d2, d3, d4⟩ := hpa.data
  have inv0 : Inv file ts [] (Mdat.create) ts := by
    refine ⟨Mdat.Holds.create, rfl, ?_⟩
    intro i t t' ht ht'
    rw [ht] at ht'; injection ht' with e; subst e
    have hw := hwf t (List.mem_of_getElem? ht)
    obtain ⟨_, _, _, _, hlen, _⟩ := trackMoved_ok hw 0 0 0 (fun o _ _ => by omega)
    refine ⟨⟨rfl, rfl, rfl, rfl, rfl, rfl⟩, hw, hlen, ?_⟩
    have : ∀ (ch : List (Nat × Nat)) (L : List Nat), ch.length = L.length →
        L = List.zipWith (fun c o => if t.inFile c.2 then place [] 0 o else o) ch L := by
      intro ch
      induction ch with
      | nil => intro L h; simp [List.eq_nil_of_length_eq_zero h.symm]
      | cons c ch ih =>
        intro L h
        cases L with
        | nil => simp at h
        | cons o L =>
          simp only [List.zipWith_cons_cons, place, ite_self]
          congr 1
          have := ih L (by simpa using h)
          simpa [place] using this
    exact this _ _ hlen
  obtain ⟨cur, e1, e2, e3⟩ := step_tracks inv0 (t := first) (Nat.zero_le _) (by omega)
  have inv1 : Inv file ts [first] first cur := ⟨by simpa using d3, e2, e3⟩
  obtain ⟨m, ts', f1, f2⟩ := mergeLoop_ok file hfile junk ts more 0 [first] first cur _ inv1 hrest
    (by simp [total]) (by simp) (by simpa using d2)
  refine ⟨m, ts', ?_, f2.len, ?_⟩
  · unfold merge
    have w1 : first.dataOffset % 4294967296 = first.dataOffset := Nat.mod_eq_of_lt (by omega)
    have w2 : (first.dataSize + first.dataOffset) % 18446744073709551616 = first.dataSize + first.dataOffset :=
      Nat.mod_eq_of_lt (by omega)
    have w3 : - s32 first.dataOffset = ((total [] : Nat) : Int) - first.dataOffset := by
      unfold s32
      rw [if_pos (by omega)]
      simp [total]
    rw [w1, if_neg (by omega), w2, w3, e1]
    exact f1
  · intro i t t' ht ht'
    obtain ⟨a1, a2, a3, a4⟩ := f2.tracks i t t' ht ht'
    refine ⟨a1, ?_⟩
    intro c d o hc hof
    refine ⟨if t.inFile d.2 then place (first :: more) 0 o else o, ?_, ?_, ?_⟩
    · rw [a4, List.getElem?_zipWith, hc, hof]; rfl
    · intro u hu hf h1 k hk h2
      rw [if_pos hf]
      have hb := place_bytes file (first :: more) (fun t ht => (hall t ht).2) [] 0 o (fun _ _ => Nat.zero_le _) hpw
        u hu h1 k hk h2
      simp only [List.length_nil, List.nil_append] at hb
      have hl := flatMap_total file (first :: more) (fun t ht => (hall t ht).2)
      have hpl := place_lt (first :: more) 0 o ⟨u, hu, h1, by omega⟩
      have hbig : total (first :: more) ≤ file.length := by
        have : ∀ (ms : List Mdat.T) (lo : Nat), (∀ t ∈ ms, lo ≤ t.dataOffset ∧ t.dataOffset + t.dataSize ≤ file.length) →
            List.Pairwise (fun a b : Mdat.T => a.dataOffset + a.dataSize ≤ b.dataOffset) ms →
            lo ≤ file.length → lo + total ms ≤ file.length := by
          intro ms
          induction ms with
          | nil => intro lo _ _ h; simp [total]; exact h
          | cons t ms ih =>
            intro lo h1 h2 _
            have hh := h1 t (by simp)
            have := ih (t.dataOffset + t.dataSize) (fun u hu => ⟨(List.pairwise_cons.mp h2).1 u hu, (h1 u (by simp [hu])).2⟩)
              (List.pairwise_cons.mp h2).2 hh.2
            have e : total (t :: ms) = t.dataSize + total ms := by simp [total]
            rw [e]; omega
        have := this _ 0 hall hpw (Nat.zero_le _)
        omega
      have hm := f2.holds
      rw [List.singleton_append] at hm
      rw [Mdat.c24_copy_delivers hm (by rw [hl]; omega) _ k hk hb.1 (by omega) (by
        have := (hall u hu).2; omega), hb.2]
    · intro h
      rcases h with h | h
      · rw [h]; rfl
      · rw [place_none _ _ _ (fun ⟨u, hu, h'⟩ => h u hu h')]; simp

/-- A file with three media data boxes, one of them empty (and dropped), and another box. -/
def exampleFile : Bytes :=
  [0, 0, 0, 11, 0x6d, 0x64, 0x61, 0x74, 1, 2, 3] ++ [0, 0, 0, 8, 0x6d, 0x64, 0x61, 0x74] ++
  [0, 0, 0, 9, 0x66, 0x72, 0x65, 0x65, 0] ++ [0, 0, 0, 12, 0x6d, 0x64, 0x61, 0x74, 4, 5, 6, 7]

example : InOrder exampleFile 0 [⟨some [1, 2, 3], 3, 3, 8⟩, ⟨some [4, 5, 6, 7], 4, 4, 36⟩] :=
  ⟨0, by decide, ⟨by decide, ⟨11, 0x6d646174, [], 0, 8⟩, exampleFile.drop 11, by decide⟩,
   28, by decide, ⟨by decide, ⟨12, 0x6d646174, [], 0, 8⟩, [], by decide⟩, trivial⟩

/-- Chunks at 9 and 37 of the file come to 1 and 4 of the merged data; the chunk at 9 of another
file stays. (The first box has room here, to keep the evaluation small.) -/
example : (merge (fun _ _ => 0) ⟨some [1, 2, 3, 0, 0, 0, 0, 0], 3, 8, 8⟩ [⟨some [4, 5, 6, 7], 4, 4, 36⟩]
    [⟨[1, 2], [1, 0], [⟨1, 1, 1⟩, ⟨3, 1, 2⟩], ⟨3, 24, [9, 37, 9]⟩, 0, 0⟩]).bind
      (fun r => .ok (r.2.map (·.offsets), r.1.data.map (·.take 7), r.1.dataSize)) =
    .ok ([[1, 4, 9]], some [1, 2, 3, 4, 5, 6, 7], 7) := by decide

/-- The size limit is needed: with the second box at 3000000000 the displacement does not fit an
`s32`, and the chunk in it comes to 4294967299, outside the merged data. -/
theorem c27_far_box_wrong :
    (merge (fun _ _ => 0) ⟨some [1, 2, 3, 0, 0, 0, 0, 0], 3, 8, 8⟩ [⟨some [4, 5, 6, 7], 4, 4, 3000000000⟩]
      [⟨[1], [1], [⟨1, 1, 1⟩], ⟨1, 8, [3000000000]⟩, 0, 0⟩]).bind (fun r => .ok (r.2.map (·.offsets), r.1.dataSize)) =
    .ok ([[4294967299]], 7) := by decide

end Verif.Movie
