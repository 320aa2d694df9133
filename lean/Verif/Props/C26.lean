import Verif.Lemmas.Movie

/-!
# C26: chunk offsets in a written file point at the chunk's bytes

`Track.offsets`, `Track.chunks`, `Track.inFile` and `Track.WF` (Lemmas/Movie.lean) say what a track
is; `Stco.layout` (Props/C14.lean) is the byte layout of a chunk offset box, and `Mdat.Holds`
(Props/C24.lean) says that a media data box holds given bytes.
-/

namespace Verif.Movie

/-- Length of a piece of the movie box. -/
def pieceLen (ts : List Track) : Piece → Nat
  | .raw bs => bs.length
  | .offsets i => match ts[i]? with
    | some t => (Stco.layout t.version t.flags t.offsets).length
    | none => 0

/-- Length of some pieces of the movie box. -/
def piecesLen (ts : List Track) (ps : List Piece) : Nat := (ps.map (pieceLen ts)).sum

/-- The chunk offset box `bs` (followed by anything) tells, for every chunk of track `t`, where that
chunk's bytes are in `file`: in the file what is at the chunk's place in the media data `D`; a chunk
of another file keeps its offset. -/
def PointsInto (t : Track) (D file bs : Bytes) : Prop :=
  ∃ s hd rest, parseAtom Stco.parseBody bs = .ok (((t.version, t.flags), s), hd, rest) ∧
    s.count = t.stco.count ∧
    ∀ c d o, t.chunks[c]? = some d → t.offsets[c]? = some o →
      ∃ o', Stco.getChunkOffset s (c + 1) = .ok o' ∧
        (t.inFile d.2 = true → ∀ k, o + k ≤ D.length → o' + k ≤ file.length ∧
          (file.drop o').take k = (D.drop o).take k) ∧
        (t.inFile d.2 = false → o' = o)

/-- Same tracks, with the same chunk offsets. -/
def Unchanged (ts ts' : List Track) : Prop :=
  ts'.length = ts.length ∧ ∀ (i : Nat) (t t' : Track), ts[i]? = some t → ts'[i]? = some t' →
    SameBut t t' ∧ t'.offsets = t.offsets

/-- Bytes of a piece. -/
def pieceOut (ts : List Track) : Piece → Bytes
  | .raw bs => bs
  | .offsets i => match ts[i]? with
    | some t => Stco.layout t.version t.flags t.offsets
    | none => []

theorem boxType_relocated (inFile : Nat → Bool) (n up : Nat) (hn : n + up < 2 ^ 32)
    (ch : List (Nat × Nat)) (L : List Nat) (h : ch.length = L.length) :
    Stco.boxType (List.zipWith (Stco.relocated inFile 0 n up) ch L) = Stco.boxType L := by
  have key : ∀ c o, Stco.relocated inFile 0 n up c o < 2 ^ 32 ↔ o < 2 ^ 32 := by
    intro c o
    unfold Stco.relocated
    split
    · next hh => omega
    · exact Iff.rfl
  have iff : (∀ o ∈ List.zipWith (Stco.relocated inFile 0 n up) ch L, o < 2 ^ 32) ↔ ∀ o ∈ L, o < 2 ^ 32 := by
    induction ch generalizing L with
    | nil => have : L = [] := List.eq_nil_of_length_eq_zero h.symm; subst this; simp
    | cons c ch ih =>
      cases L with
      | nil => simp at h
      | cons o L =>
        simp only [List.zipWith_cons_cons, List.forall_mem_cons, key]
        rw [ih L (by simpa using h)]
  by_cases hs : ∀ o ∈ L, o < 2 ^ 32
  · rw [Stco.boxType_small hs, Stco.boxType_small (iff.mpr hs)]
  · rw [Stco.boxType_large hs, Stco.boxType_large (fun h => hs (iff.mp h))]

theorem moveUp_small {pre moov m : Nat} (h : pre + moov + 8 < 4294967296) (hm : m ≠ 1) :
    moveUp pre moov m = pre + moov + 8 := by
  unfold moveUp
  rw [if_neg hm, Nat.mod_eq_of_lt (show pre + moov < 4294967296 by omega), Nat.mod_eq_of_lt h]

theorem undo_list (inFile : Nat → Bool) (n up : Nat) (ch : List (Nat × Nat)) (L : List Nat)
    (h : ch.length = L.length)
    (hin : ∀ (i : Nat) (c : Nat × Nat) (o : Nat), ch[i]? = some c → L[i]? = some o → inFile c.2 = true → o < n) :
    List.zipWith (Stco.relocated inFile up (n + up) (-(up : Int))) ch
      (List.zipWith (Stco.relocated inFile 0 n up) ch L) = L := by
  induction ch generalizing L with
  | nil => have : L = [] := List.eq_nil_of_length_eq_zero h.symm; subst this; simp
  | cons c ch ih =>
    cases L with
    | nil => simp at h
    | cons o L =>
      simp only [List.zipWith_cons_cons]
      rw [ih L (by simpa using h) (fun i c o hc ho => hin (i + 1) c o (by simpa using hc) (by simpa using ho))]
      congr 1
      have := hin 0 c o rfl rfl
      unfold Stco.relocated
      by_cases hf : inFile c.2 = true
      · have := this hf
        rw [if_pos (c := _ ∧ 0 ≤ o ∧ o < n) ⟨hf, by omega, this⟩, if_pos ⟨hf, by omega, by omega⟩]
        omega
      · rw [if_neg (fun h => hf h.1), if_neg (fun h => hf h.1)]

/-- What `putMovie` produces. -/
theorem putMovie_ok (pre : Bytes) (pieces : List Piece) (ts : List Track) (mdat : Mdat.T) (D : Bytes)
    (old64 : Nat) (hD : Mdat.Rep mdat D) (hwf : ∀ t ∈ ts, t.WF)
    (hidx : ∀ i, Piece.offsets i ∈ pieces → i < ts.length)
    (hin : ∀ t ∈ ts, ∀ (c : Nat) (d : Nat × Nat) (o : Nat), t.chunks[c]? = some d → t.offsets[c]? = some o →
      t.inFile d.2 = true → o < D.length)
    (hhead : pre.length + piecesLen ts pieces + 8 < 2 ^ 31)
    (hfile : pre.length + piecesLen ts pieces + 8 + D.length < 2 ^ 32) :
    ∃ ts1 ts2, putMovie pre pieces ts mdat old64 = .ok (pre ++ (pieces.map (pieceOut ts1)).flatten, ts2) ∧
      ts1.length = ts.length ∧
      (∀ (i : Nat) (t t1 : Track), ts[i]? = some t → ts1[i]? = some t1 → SameBut t t1 ∧ t1.WF ∧
        t1.offsets = List.zipWith (Stco.relocated t.inFile 0 D.length ((pre.length + piecesLen ts pieces + 8 : Nat) : Int))
          t.chunks t.offsets ∧
        ∀ rest, ∃ s hd, parseAtom Stco.parseBody (Stco.layout t1.version t1.flags t1.offsets ++ rest) =
          .ok (((t1.version, t1.flags), s), hd, rest) ∧ Stco.Rep s t1.offsets) ∧
      (∀ p ∈ pieces, (pieceOut ts1 p).length = pieceLen ts p) ∧ Unchanged ts ts2 := by
  have hsz := hD.size
  generalize hup : pre.length + piecesLen ts pieces + 8 = up at *
  have hm : (Mdat.calcSize mdat.dataSize old64).1 ≠ 1 := by
    rw [hsz]
    by_cases h0 : D.length = 0
    · rw [h0]; unfold Mdat.calcSize; rw [if_pos rfl]; simp
    · rw [Mdat.calcSize_small (by omega) (by omega)]
      show (8 + D.length) % 4294967296 ≠ 1
      rw [Nat.mod_eq_of_lt (by omega)]; omega
  -- sizes
  have h1 : mapRes sized ts = .ok (ts.map fun t => (Stco.boxType t.offsets, Stco.calcSize t.offsets)) :=
    mapRes_map _ _ fun t ht => sized_ok (hwf t ht)
  have h2 : mapRes (pieceSize (ts.map fun t => (Stco.boxType t.offsets, Stco.calcSize t.offsets))) pieces =
      .ok (pieces.map (pieceLen ts)) := by
    apply mapRes_map
    intro p hp
    cases p with
    | raw bs => rfl
    | offsets i =>
      have hi := hidx i hp
      simp only [pieceSize, pieceLen, List.getElem?_map, List.getElem?_eq_getElem hi, Option.map_some]
      rw [(write_track (hwf _ (List.getElem_mem hi)) rfl rfl).2.1]
  have h3 : moveUp pre.length ((pieces.map (pieceLen ts)).sum % 4294967296)
      (Mdat.calcSize mdat.dataSize old64).1 = up := by
    have : (pieces.map (pieceLen ts)).sum = piecesLen ts pieces := rfl
    rw [this, Nat.mod_eq_of_lt (by omega), moveUp_small (by omega) hm, hup]
  have h4 : s32 up = (up : Int) := by unfold s32; omega
  -- moving
  obtain ⟨ts1, m1, m2, m3⟩ := mapRes_ok (f := trackMoved 0 D.length (up : Int))
    (R := fun _ t t1 => SameBut t t1 ∧
      t1.offsets = List.zipWith (Stco.relocated t.inFile 0 D.length (up : Int)) t.chunks t.offsets ∧
      t.chunks.length = t.offsets.length ∧ t1.WF) ts 0
    (fun i t ht => trackMoved_ok (hwf t (List.mem_of_getElem? ht)) _ _ _ (fun o _ _ => by omega))
  have m3 : ∀ (i : Nat) (t t1 : Track), ts[i]? = some t → ts1[i]? = some t1 → _ := m3
  have get1 : ∀ i, i < ts.length → ∃ t t1, ts[i]? = some t ∧ ts1[i]? = some t1 := fun i hi =>
    ⟨ts[i], ts1[i]'(by omega), List.getElem?_eq_getElem hi, List.getElem?_eq_getElem (by omega)⟩
  -- the box of a moved track
  have wr : ∀ (i : Nat) (t t1 : Track), ts[i]? = some t → ts1[i]? = some t1 →
      t1.offsets.length = t.offsets.length ∧ Stco.boxType t1.offsets = Stco.boxType t.offsets := by
    intro i t t1 ht ht1
    obtain ⟨a1, a2, a3, a4⟩ := m3 i t t1 ht ht1
    refine ⟨by rw [a2, List.length_zipWith, a3, Nat.min_self], ?_⟩
    rw [a2, boxType_relocated _ _ _ (by omega) _ _ a3]
  have h5 : mapRes (pieceBytes (ts.map fun t => (Stco.boxType t.offsets, Stco.calcSize t.offsets)) ts1) pieces =
      .ok (pieces.map (pieceOut ts1)) := by
    apply mapRes_map
    intro p hp
    cases p with
    | raw bs => rfl
    | offsets i =>
      obtain ⟨t, t1, ht, ht1⟩ := get1 i (hidx i hp)
      obtain ⟨a1, a2, a3, a4⟩ := m3 i t t1 ht ht1
      obtain ⟨b1, b2⟩ := wr i t t1 ht ht1
      simp only [pieceBytes, pieceOut, List.getElem?_map, ht, ht1, Option.map_some, a4.rep.used, Res.bind]
      exact (write_track a4 b1.symm b2.symm).1
  -- moving back
  obtain ⟨ts2, n1, n2, n3⟩ := mapRes_ok (f := trackMoved up (D.length + up) (-(up : Int)))
    (R := fun _ t1 t2 => SameBut t1 t2 ∧
      t2.offsets = List.zipWith (Stco.relocated t1.inFile up (D.length + up) (-(up : Int))) t1.chunks t1.offsets ∧
      t1.chunks.length = t1.offsets.length ∧ t2.WF) ts1 0
    (fun i t1 ht1 => by
      obtain ⟨t, t1', ht, ht1'⟩ := get1 i (by
        have := (List.getElem?_eq_some_iff.mp ht1).1; omega)
      rw [ht1] at ht1'; injection ht1' with e; subst e
      exact trackMoved_ok (m3 i t _ ht ht1).2.2.2 _ _ _ (fun o _ _ => by omega))
  have n3 : ∀ (i : Nat) (t t1 : Track), ts1[i]? = some t → ts2[i]? = some t1 → _ := n3
  refine ⟨ts1, ts2, ?_, m2, ?_, ?_, by omega, ?_⟩
  · unfold putMovie
    rw [h1]
    simp only [Res.bind]
    rw [h2]
    simp only
    rw [h3, h4, hsz, Nat.mod_eq_of_lt (show D.length + up < 18446744073709551616 by omega)]
    unfold moved
    rw [m1]
    simp only
    rw [h5]
    simp only
    rw [n1]
  · intro i t t1 ht ht1
    obtain ⟨a1, a2, a3, a4⟩ := m3 i t t1 ht ht1
    obtain ⟨b1, b2⟩ := wr i t t1 ht ht1
    exact ⟨a1, a4, a2, (write_track a4 b1.symm b2.symm).2.2⟩
  · intro p hp
    cases p with
    | raw bs => rfl
    | offsets i =>
      obtain ⟨t, t1, ht, ht1⟩ := get1 i (hidx i hp)
      obtain ⟨a1, a2, a3, a4⟩ := m3 i t t1 ht ht1
      obtain ⟨b1, b2⟩ := wr i t t1 ht ht1
      simp only [pieceOut, pieceLen, ht, ht1]
      rw [(write_track a4 b1.symm b2.symm).2.1, (write_track (hwf t (List.mem_of_getElem? ht)) rfl rfl).2.1]
  · intro i t t2 ht ht2
    obtain ⟨t', t1, ht', ht1⟩ := get1 i (List.getElem?_eq_some_iff.mp ht).1
    rw [ht] at ht'; injection ht' with e; subst e
    obtain ⟨a1, a2, a3, a4⟩ := m3 i t t1 ht ht1
    obtain ⟨c1, c2, c3, c4⟩ := n3 i t1 t2 ht1 ht2
    refine ⟨⟨by rw [c1.stsd, a1.stsd], by rw [c1.dref, a1.dref], by rw [c1.es, a1.es],
      by rw [c1.version, a1.version], by rw [c1.flags, a1.flags], by rw [c1.count, a1.count]⟩, ?_⟩
    rw [c2, a1.inFile, a1.chunks, a2]
    exact undo_list _ _ _ _ _ a3 (hin t (List.mem_of_getElem? ht))

theorem map_flatten_length {α : Type} (f : α → Bytes) (g : α → Nat) (l : List α)
    (h : ∀ a ∈ l, (f a).length = g a) : (l.map f).flatten.length = (l.map g).sum := by
  induction l with
  | nil => rfl
  | cons a l ih =>
    simp only [List.map_cons, List.flatten_cons, List.length_append, List.sum_cons, h a (by simp)]
    rw [ih fun b hb => h b (by simp [hb])]

/-- **C26.** A movie with any number of tracks is written to a file or into a handle: `pre` is what
comes before the movie box, `pieces` is the content of the movie box (including its header and all
other boxes), with the chunk offset box of each track at any place in it, and the media data box
holds `D`. All chunks whose data are in this file begin inside `D`. The header part is smaller than
`2^31` bytes and the file smaller than `2^32`.

Then writing succeeds; wherever the chunk offset box of a track is in the file, its offsets point at
the bytes of the chunks; and the offsets in memory are as before. -/
theorem c26_written_offsets (pre : Bytes) (pieces : List Piece) (ts : List Track) (mdat : Mdat.T)
    (D : Bytes) (old64 : Nat) (hD : Mdat.Holds mdat D) (hwf : ∀ t ∈ ts, t.WF)
    (hidx : ∀ i, Piece.offsets i ∈ pieces → i < ts.length)
    (hin : ∀ t ∈ ts, ∀ (c : Nat) (d : Nat × Nat) (o : Nat), t.chunks[c]? = some d → t.offsets[c]? = some o →
      t.inFile d.2 = true → o < D.length)
    (hhead : pre.length + piecesLen ts pieces + 8 < 2 ^ 31)
    (hfile : pre.length + piecesLen ts pieces + 8 + D.length < 2 ^ 32) :
    ∃ file ts', writeFile pre pieces ts mdat old64 = .ok (file, ts') ∧
      putHandle pre pieces ts mdat old64 = .ok (file, ts') ∧
      file.length = pre.length + piecesLen ts pieces + (if D = [] then 0 else 8 + D.length) ∧
      Unchanged ts ts' ∧
      ∀ (A B : List Piece) (i : Nat) (t : Track), pieces = A ++ .offsets i :: B → ts[i]? = some t →
        PointsInto t D file (file.drop (pre.length + piecesLen ts A)) := by
  have hrep := hD.bound (by omega)
  obtain ⟨ts1, ts2, h1, h2, h3, h4, h5⟩ := putMovie_ok pre pieces ts mdat D old64 hrep hwf hidx hin hhead hfile
  have hw : Mdat.writeToFile mdat old64 = .ok (if D = [] then [] else box (fcc 'm' 'd' 'a' 't') D) := by
    by_cases h0 : D = []
    · rw [if_pos h0]
      subst h0
      unfold Mdat.writeToFile Mdat.calcSize
      rw [hrep.size]; rfl
    · rw [if_neg h0, Mdat.write_ok hrep h0 (by omega) (by omega) old64, Mdat.layout_small (by omega)]
      rfl
  have hm : (Mdat.calcSize mdat.dataSize old64).1 ≠ 1 := by
    rw [hrep.size]
    by_cases h0 : D.length = 0
    · rw [h0]; unfold Mdat.calcSize; rw [if_pos rfl]; simp
    · rw [Mdat.calcSize_small (by omega) (by omega)]
      show (8 + D.length) % 4294967296 ≠ 1
      rw [Nat.mod_eq_of_lt (by omega)]; omega
  have hlenM := map_flatten_length (pieceOut ts1) (pieceLen ts) pieces h4
  have hbox : ∀ X : Bytes, (box (fcc 'm' 'd' 'a' 't') X).length = 8 + X.length := by
    intro X; simp [box]; omega
  refine ⟨pre ++ (pieces.map (pieceOut ts1)).flatten ++ (if D = [] then [] else box (fcc 'm' 'd' 'a' 't') D), ts2, ?_, ?_, ?_, h5, ?_⟩
  · unfold writeFile
    rw [h1]; simp only [Res.bind]; rw [hw]
  · unfold putHandle
    rw [if_neg hm, h1]; simp only [Res.bind]; rw [mdat_serialize hrep (by omega), hw]
  · rw [List.length_append, List.length_append, hlenM]
    show _ + piecesLen ts pieces + _ = _
    split
    · rfl
    · rw [hbox]
  · intro A B i t hp ht
    have hi : i < ts.length := (List.getElem?_eq_some_iff.mp ht).1
    have ht1 : ts1[i]? = some (ts1[i]'(by omega)) := List.getElem?_eq_getElem (by omega)
    generalize ts1[i]'(by omega) = t1 at ht1
    obtain ⟨a1, a2, a3, a4⟩ := h3 i t t1 ht ht1
    have hlenA : (A.map (pieceOut ts1)).flatten.length = piecesLen ts A :=
      map_flatten_length (pieceOut ts1) (pieceLen ts) A (fun p hpA => h4 p (by rw [hp]; simp [hpA]))
    generalize hM : (if D = [] then ([] : Bytes) else box (fcc 'm' 'd' 'a' 't') D) = M
    have hdrop : (pre ++ (pieces.map (pieceOut ts1)).flatten ++ M).drop (pre.length + piecesLen ts A) =
        Stco.layout t1.version t1.flags t1.offsets ++ ((B.map (pieceOut ts1)).flatten ++ M) := by
      have : pre ++ (pieces.map (pieceOut ts1)).flatten ++ M =
          (pre ++ (A.map (pieceOut ts1)).flatten) ++
            (Stco.layout t1.version t1.flags t1.offsets ++ ((B.map (pieceOut ts1)).flatten ++ M)) := by
        rw [hp]
        simp only [List.map_append, List.map_cons, List.flatten_append, List.flatten_cons, pieceOut, ht1,
          List.append_assoc]
      rw [this]
      exact List.drop_left' (by rw [List.length_append, hlenA])
    obtain ⟨s, hd, e1, e2⟩ := a4 ((B.map (pieceOut ts1)).flatten ++ M)
    have hcount : t1.offsets.length = t.stco.count := by rw [a2.length, a1.count]
    refine ⟨s, hd, _, by rw [hdrop, e1, a1.version, a1.flags], by rw [e2.count, hcount], ?_⟩
    intro c d o hc ho
    have hc1 : t1.offsets[c]? = some (Stco.relocated t.inFile 0 D.length ((pre.length + piecesLen ts pieces + 8 : Nat) : Int) d o) := by
      rw [a3, List.getElem?_zipWith, hc, ho]
    have hcl := (List.getElem?_eq_some_iff.mp hc1).1
    have hget : Stco.getChunkOffset s (c + 1) =
        .ok (Stco.relocated t.inFile 0 D.length ((pre.length + piecesLen ts pieces + 8 : Nat) : Int) d o) := by
      rw [e2.getChunkOffset, dif_pos ⟨by omega, hcl⟩]
      exact congrArg _ (List.getElem?_eq_some_iff.mp hc1).2
    refine ⟨_, hget, ?_, ?_⟩
    · intro hf k hk
      have hlt := hin t (List.mem_of_getElem? ht) c d o hc ho hf
      have hne : D ≠ [] := by intro h; subst h; simp at hlt
      have hval : Stco.relocated t.inFile 0 D.length ((pre.length + piecesLen ts pieces + 8 : Nat) : Int) d o =
          pre.length + piecesLen ts pieces + 8 + o := by
        unfold Stco.relocated
        rw [if_pos ⟨hf, by omega, hlt⟩]
        omega
      rw [hval, ← hM, if_neg hne]
      have hfl : (pre ++ (pieces.map (pieceOut ts1)).flatten).length = pre.length + piecesLen ts pieces := by
        rw [List.length_append, hlenM]; rfl
      constructor
      · rw [List.length_append, hfl, hbox]; omega
      · rw [show pre.length + piecesLen ts pieces + 8 + o = (pre ++ (pieces.map (pieceOut ts1)).flatten).length + (8 + o) by
          rw [hfl]; omega, List.drop_length_add_append]
        congr 1
        unfold box
        rw [← List.drop_drop, List.drop_left' (by simp)]
    · intro hf
      unfold Stco.relocated
      rw [if_neg]
      rw [hf]; simp

/-- Two tracks: the first has two chunks in the file and one in another file, the second a chunk
in the file. -/
def exampleTracks : List Track :=
  [{ stsd := [1, 2], dref := [1, 0], es := [⟨1, 2, 1⟩, ⟨3, 1, 2⟩], stco := ⟨3, 24, [0, 3, 7]⟩, version := 0, flags := 0 },
   { stsd := [1], dref := [1], es := [⟨1, 1, 1⟩], stco := ⟨1, 8, [2]⟩, version := 0, flags := 0 }]

def exampleMdat : Mdat.T := ⟨some [10, 11, 12, 13, 14], 5, 5, 8⟩

theorem exampleTracks_wf : ∀ t ∈ exampleTracks, t.WF := by
  intro t ht
  simp only [exampleTracks, List.mem_cons, List.not_mem_nil, or_false] at ht
  rcases ht with rfl | rfl
  · refine ⟨by decide, by decide, .inr ⟨by decide, ⟨by simp, ?_, by decide, by decide⟩⟩, ?_, by decide, by decide⟩
    · intro i a b ha hb
      match i with
      | 0 => simp at ha hb; subst ha hb; decide
      | n + 1 => simp at hb
    intro e he
    simp only [List.mem_cons, List.not_mem_nil, or_false] at he
    rcases he with rfl | rfl
    · exact ⟨by decide, true, by decide⟩
    · exact ⟨by decide, false, by decide⟩
  · refine ⟨by decide, by decide, .inr ⟨by decide, ⟨by simp, by simp, by decide, by decide⟩⟩, ?_, by decide, by decide⟩
    intro e he
    simp only [List.mem_cons, List.not_mem_nil, or_false] at he
    subst he
    exact ⟨by decide, true, by decide⟩

theorem exampleMdat_holds : Mdat.Holds exampleMdat [10, 11, 12, 13, 14] :=
  Mdat.Holds.parsed (inp := [0, 0, 0, 13, 0x6d, 0x64, 0x61, 0x74, 10, 11, 12, 13, 14]) (off := 0)
    (h := ⟨13, 0x6d646174, [], 0, 8⟩) (rest := []) (by decide)

/-- All hypotheses together. -/
example :
    (∀ i, Piece.offsets i ∈ [Piece.raw [1, 2, 3], .offsets 0, .raw [4], .offsets 1] → i < exampleTracks.length) ∧
    (∀ t ∈ exampleTracks, ∀ (c : Nat) (d : Nat × Nat) (o : Nat), t.chunks[c]? = some d → t.offsets[c]? = some o →
      t.inFile d.2 = true → o < 5) := by
  refine ⟨by simp [exampleTracks], ?_⟩
  have : ∀ t ∈ exampleTracks, ∀ c < 3, ∀ d ∈ t.chunks, ∀ o ∈ t.offsets, t.chunks[c]? = some d → t.offsets[c]? = some o →
      t.inFile d.2 = true → o < 5 := by decide
  intro t ht c d o hc ho
  refine this t ht c ?_ d (List.mem_of_getElem? hc) o (List.mem_of_getElem? ho) hc ho
  have h1 := (List.getElem?_eq_some_iff.mp ho).1
  have h2 : ∀ t ∈ exampleTracks, t.offsets.length ≤ 3 := by decide
  have := h2 t ht
  omega

/-- What is written then: offsets 0 and 3 became 64 and 67, the one in the other file stayed 7,
and offset 2 of the other track became 66; byte 64 of the file is the first one of the data. -/
example : writeFile [9, 9, 9, 9] [.raw [1, 2, 3], .offsets 0, .raw [4], .offsets 1] exampleTracks exampleMdat 0 =
    .ok ([9, 9, 9, 9, 1, 2, 3] ++
      [0, 0, 0, 28, 0x73, 0x74, 0x63, 0x6f, 0, 0, 0, 0, 0, 0, 0, 3, 0, 0, 0, 64, 0, 0, 0, 67, 0, 0, 0, 7] ++
      [4] ++ [0, 0, 0, 20, 0x73, 0x74, 0x63, 0x6f, 0, 0, 0, 0, 0, 0, 0, 1, 0, 0, 0, 66] ++
      [0, 0, 0, 13, 0x6d, 0x64, 0x61, 0x74, 10, 11, 12, 13, 14], exampleTracks) := by decide

/-- The condition that chunks begin inside the data is needed: an empty chunk (of samples without
bytes) added last has the length of the data as its offset. It is not moved, and the way back moves
it: here, from 40 to 8. Writing the movie changes the offset in memory, and the next file is
wrong. -/
theorem c26_empty_last_chunk :
    (writeFile [] [.offsets 0] [⟨[1], [1], [⟨1, 1, 1⟩], ⟨2, 16, [0, 40]⟩, 0, 0⟩]
        ⟨some (List.replicate 40 7), 40, 40, 0⟩ 0).bind (fun r => .ok (r.2.map (·.offsets)))
      = .ok [[0, 8]] := by decide

end Verif.Movie
