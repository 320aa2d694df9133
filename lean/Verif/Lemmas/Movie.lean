import Verif.Model.Movie
import Verif.Props.C14
import Verif.Props.C15
import Verif.Props.C43

/-! # Lemmas for C26 and C27 -/

namespace Verif.Movie

theorem mapRes_ok {α β : Type} {f : α → Res β} {R : Nat → α → β → Prop} : ∀ (l : List α) (k : Nat),
    (∀ i a, l[i]? = some a → ∃ b, f a = .ok b ∧ R (k + i) a b) →
    ∃ bs, mapRes f l = .ok bs ∧ bs.length = l.length ∧
      ∀ i a b, l[i]? = some a → bs[i]? = some b → R (k + i) a b := by
  intro l
  induction l with
  | nil => intro k _; exact ⟨[], rfl, rfl, by intro i a b h; simp at h⟩
  | cons x l ih =>
    intro k h
    obtain ⟨b, h1, h2⟩ := h 0 x rfl
    obtain ⟨bs, g1, g2, g3⟩ := ih (k + 1) (fun i a ha => by
      have := h (i + 1) a (by simpa using ha)
      rwa [show k + (i + 1) = k + 1 + i by omega] at this)
    refine ⟨b :: bs, by simp only [mapRes, h1, g1, Res.bind], by simp [g2], ?_⟩
    intro i a c ha hc
    cases i with
    | zero => simp at ha hc; subst ha hc; exact h2
    | succ i =>
      simp only [List.getElem?_cons_succ] at ha hc
      have := g3 i a c ha hc
      rwa [show k + 1 + i = k + (i + 1) by omega] at this

theorem mapRes_map {α β : Type} {f : α → Res β} (g : α → β) (l : List α)
    (h : ∀ a ∈ l, f a = .ok (g a)) : mapRes f l = .ok (l.map g) := by
  induction l with
  | nil => rfl
  | cons x l ih =>
    simp only [mapRes, h x (by simp), ih (fun a ha => h a (by simp [ha])), Res.bind, List.map_cons]

/-- The chunk offsets of a track. -/
def Track.offsets (t : Track) : List Nat := t.stco.cells.take t.stco.count

/-- The chunks of a track: number of samples and sample description of each. -/
def Track.chunks (t : Track) : List (Nat × Nat) := chunksOf t.es t.stco.count

/-- Whether the chunks with sample description `d` are in the movie's own file. -/
def Track.inFile (t : Track) (d : Nat) : Bool := decide (Stco.selfContained t.stsd t.dref d = .ok true)

/-- Well-formed tables: the chunk offset array holds what its count says, the sample-to-chunk table
covers exactly these chunks, and every sample description it mentions, and the data reference of
that, exist. -/
structure Track.WF (t : Track) : Prop where
  cells : t.stco.count ≤ t.stco.cells.length
  count : t.stco.count < 536869888
  table : (t.es = [] ∧ t.stco.count = 0) ∨ (t.es ≠ [] ∧ StscWF t.es t.stco.count)
  refs : ∀ e ∈ t.es, e.desc ≠ 0 ∧ ∃ b, Stco.selfContained t.stsd t.dref e.desc = .ok b
  offs : ∀ o ∈ t.offsets, o < 18446744073709551616
  vf : t.version < 256 ∧ t.flags < 16777216

theorem Track.WF.length {t : Track} (h : t.WF) : t.offsets.length = t.stco.count := by
  unfold Track.offsets
  rw [List.length_take]
  exact Nat.min_eq_left h.cells

theorem Track.WF.rep {t : Track} (h : t.WF) : Stco.Rep t.stco t.offsets :=
  ⟨h.length.symm, by rw [h.length]; exact h.cells, by rw [h.length]; rfl⟩

theorem Track.WF.track {t : Track} (h : t.WF) (hne : t.es ≠ []) :
    Stco.Track t.stsd t.dref t.es t.offsets.length t.inFile := by
  rw [h.length]
  refine ⟨?_, hne, by have := h.count; omega, ?_⟩
  · rcases h.table with h | h
    · exact absurd h.1 hne
    · exact h.2
  · intro e he
    obtain ⟨h1, b, h2⟩ := h.refs e he
    refine ⟨h1, ?_⟩
    unfold Track.inFile
    rw [h2]
    cases b <;> simp

/-- `t'` differs from `t` in the values of the chunk offsets at most. -/
structure SameBut (t t' : Track) : Prop where
  stsd : t'.stsd = t.stsd
  dref : t'.dref = t.dref
  es : t'.es = t.es
  version : t'.version = t.version
  flags : t'.flags = t.flags
  count : t'.stco.count = t.stco.count

theorem SameBut.inFile {t t' : Track} (h : SameBut t t') : t'.inFile = t.inFile := by
  unfold Track.inFile; rw [h.stsd, h.dref]

theorem SameBut.chunks {t t' : Track} (h : SameBut t t') : t'.chunks = t.chunks := by
  unfold Track.chunks; rw [h.es, h.count]

/-- One relocation of one track. -/
theorem trackMoved_ok {t : Track} (h : t.WF) (base stop : Nat) (delta : Int)
    (hrange : ∀ o, base ≤ o → o < stop → 0 ≤ (o : Int) + delta ∧ (o : Int) + delta < 18446744073709551616) :
    ∃ t', trackMoved base stop delta t = .ok t' ∧ SameBut t t' ∧
      t'.offsets = List.zipWith (Stco.relocated t.inFile base stop delta) t.chunks t.offsets ∧
      t.chunks.length = t.offsets.length ∧ t'.WF := by
  by_cases hne : t.es = []
  · have hc : t.stco.count = 0 := by
      rcases h.table with g | g
      · exact g.2
      · exact absurd hne g.1
    have ho : t.offsets = [] := by unfold Track.offsets; rw [hc]; simp
    have hch : t.chunks = [] := by unfold Track.chunks; rw [hne]; rfl
    refine ⟨t, ?_, ⟨rfl, rfl, rfl, rfl, rfl, rfl⟩, by rw [ho, hch]; rfl, by rw [ho, hch]; rfl, h⟩
    unfold trackMoved Stco.trackMoved
    have : ∀ b, Stco.stscLoop t.stsd t.dref base stop delta t.stco.count [] 0 b t.stco = .ok t.stco := fun _ => rfl
    rw [hne]
    show (Stco.stscLoop t.stsd t.dref base stop delta t.stco.count [] 0 false t.stco).bind _ = _
    rw [this]
    cases t
    simp only at hne
    subst hne
    rfl
  · obtain ⟨s, h1, h2, h3⟩ := Stco.c15_moves_exactly t.stsd t.dref t.es t.inFile t.stco t.offsets h.rep
      (h.track hne) base stop delta hrange
    rw [h.length] at h2 h3
    have hlen : (List.zipWith (Stco.relocated t.inFile base stop delta) (chunksOf t.es t.stco.count) t.offsets).length
        = t.stco.count := by rw [List.length_zipWith, h3, h.length]; simp
    have hcnt : s.count = t.stco.count := by rw [h2.count, hlen]
    have hoff : s.cells.take s.count =
        List.zipWith (Stco.relocated t.inFile base stop delta) t.chunks t.offsets := by
      have := h2.cells
      rw [hlen] at this
      rw [hcnt]; exact this
    refine ⟨{ t with stco := s }, ?_, ⟨rfl, rfl, rfl, rfl, rfl, hcnt⟩, hoff, by rw [h.length]; exact h3, ?_⟩
    · simp only [trackMoved, h1, Res.bind]
    · refine ⟨?_, ?_, ?_, h.refs, ?_, h.vf⟩
      · show s.count ≤ s.cells.length
        have := h2.fits
        rw [hlen] at this
        rw [hcnt]; exact this
      · show s.count < _
        rw [hcnt]; exact h.count
      · show (t.es = [] ∧ s.count = 0) ∨ (t.es ≠ [] ∧ StscWF t.es s.count)
        rw [hcnt]; exact h.table
      · intro o ho
        have ho : o ∈ s.cells.take s.count := ho
        rw [hoff] at ho
        obtain ⟨i, hi⟩ := List.mem_iff_getElem?.mp ho
        rw [List.getElem?_zipWith] at hi
        split at hi
        · next c x hc hx =>
          injection hi with hi
          subst hi
          have hx64 := h.offs x (List.mem_of_getElem? hx)
          unfold Stco.relocated
          split
          · next hh => have := hrange x hh.2.1 hh.2.2; omega
          · exact hx64
        · cases hi

theorem sized_ok {t : Track} (h : t.WF) :
    sized t = .ok (Stco.boxType t.offsets, Stco.calcSize t.offsets) := by
  unfold sized
  rw [h.rep.used]
  rfl

/-- Writing the chunk offset box of a track, with the type and size computed for offsets of the
same number and kind. -/
theorem write_track {t : Track} (h : t.WF) {offs : List Nat} (hl : offs.length = t.offsets.length)
    (ht : Stco.boxType offs = Stco.boxType t.offsets) :
    runW (Stco.calcSize offs) (Stco.serializeAs (Stco.boxType offs) (Stco.calcSize offs) t.version t.flags t.offsets)
      = .ok (Stco.layout t.version t.flags t.offsets) ∧
    (Stco.layout t.version t.flags t.offsets).length = Stco.calcSize offs ∧
    ∀ rest, ∃ s hd, parseAtom Stco.parseBody (Stco.layout t.version t.flags t.offsets ++ rest) =
      .ok (((t.version, t.flags), s), hd, rest) ∧ Stco.Rep s t.offsets := by
  have hc : Stco.calcSize offs = Stco.calcSize t.offsets := by
    unfold Stco.calcSize; rw [ht, hl]
  have hcnt := h.count
  obtain ⟨s, h1, h2⟩ := Stco.round_trip t.version t.flags t.offsets h.vf.1 h.vf.2
    (by rw [h.length]; exact hcnt) h.offs
  rw [hc, ht]
  refine ⟨h1.write, h1.length, fun rest => ?_⟩
  obtain ⟨hd, e⟩ := h1.read rest
  exact ⟨s, hd, e, h2⟩

theorem seq_assoc (a b c : W) : ((a ;; b) ;; c) = (a ;; (b ;; c)) := by
  funext s
  unfold W.seq
  cases a s <;> rfl

/-- The media data box as serialized into a handle. -/
theorem mdat_serialize {t : Mdat.T} {D : Bytes} (h : Mdat.Rep t D) (hl : 8 + D.length < 4294967296)
    (old64 : Nat) : Mdat.serialize t old64 = Mdat.writeToFile t old64 := by
  have hs := h.size
  have hf := h.fits
  by_cases h0 : D = []
  · subst h0
    unfold Mdat.serialize Mdat.writeToFile Mdat.calcSize
    rw [hs]; rfl
  · have hp := List.length_pos_iff.mpr h0
    rw [Mdat.write_ok h h0 (by omega) (by omega) old64, Mdat.layout_small hl]
    unfold Mdat.serialize
    rw [hs, Mdat.calcSize_small (by omega) (by omega), Nat.mod_eq_of_lt hl]
    rw [if_neg (by show ¬ (8 + D.length = 1); omega), if_pos (by show 8 + D.length > 0; omega)]
    cases hd : t.data with
    | none => have := h.null hd; omega
    | some c =>
      obtain ⟨c1, c2⟩ := h.cells c hd
      dsimp only
      rw [if_neg (by omega), c2]
      have hem := (emits_serBase (8 + D.length) Mdat.typeMdat).seq (emits_bytes D)
      rw [← seq_assoc]
      exact hem.run_assert (by simp; omega) hl

end Verif.Movie
