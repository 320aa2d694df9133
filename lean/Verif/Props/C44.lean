import Verif.Model.Headers
import Verif.Lemmas.Auto

/-!
# C44: movie, track and media headers survive being written and parsed
-/

namespace Verif.Headers

/-- Bytes of a time field. -/
def timeBytes (version t : Nat) : Bytes := if version = 1 then be 8 t else be 4 t

/-- What a time field keeps. -/
def keptTime (version t : Nat) : Nat := if version = 1 then t % 2 ^ 64 else t % 2 ^ 32

def matrixBytes (m : Matrix) : Bytes := [m.a, m.b, m.u, m.c, m.d, m.v, m.x, m.y, m.w].flatMap (be 4)

def keptMatrix (m : Matrix) : Matrix :=
  ⟨m.a % 2 ^ 32, m.b % 2 ^ 32, m.u % 2 ^ 32, m.c % 2 ^ 32, m.d % 2 ^ 32, m.v % 2 ^ 32, m.x % 2 ^ 32,
   m.y % 2 ^ 32, m.w % 2 ^ 32⟩

/-- The layout of a track header (ISO/IEC 14496-12, 8.3.2). -/
def tkhdLayout (h : Tkhd) : Bytes :=
  fullBox (fcc 't' 'k' 'h' 'd') h.version h.flags
    (timeBytes h.version h.creation ++ timeBytes h.version h.modification ++ be 4 h.trackID ++ be 4 h.reserved1 ++
     timeBytes h.version h.duration ++ h.reserved2 ++ be 2 h.layer ++ be 2 h.alternateGroup ++ be 2 h.volume ++
     be 2 h.reserved3 ++ matrixBytes h.matrix ++ be 4 h.width ++ be 4 h.height)

/-- The layout of a media header (8.4.2). -/
def mdhdLayout (h : Mdhd) : Bytes :=
  fullBox (fcc 'm' 'd' 'h' 'd') h.version h.flags
    (timeBytes h.version h.creation ++ timeBytes h.version h.modification ++ be 4 h.timeScale ++
     timeBytes h.version h.duration ++ be 2 h.language ++ be 2 h.quality)

/-- The layout of a movie header (8.2.2). -/
def mvhdLayout (h : Mvhd) : Bytes :=
  fullBox (fcc 'm' 'v' 'h' 'd') h.version h.flags
    (timeBytes h.version h.creation ++ timeBytes h.version h.modification ++ be 4 h.timeScale ++
     timeBytes h.version h.duration ++ be 4 h.rate ++ be 2 h.volume ++ h.reserved ++ matrixBytes h.matrix ++
     be 4 h.previewTime ++ be 4 h.previewDuration ++ be 4 h.posterTime ++ be 4 h.selectionTime ++
     be 4 h.selectionDuration ++ be 4 h.currentTime ++ be 4 h.nextTrackID)

/-- What is kept of a track header: every field cut to its width. -/
def keptTkhd (h : Tkhd) : Tkhd :=
  ⟨h.version, h.flags, keptTime h.version h.creation, keptTime h.version h.modification, h.trackID % 2 ^ 32,
   h.reserved1 % 2 ^ 32, keptTime h.version h.duration, h.reserved2, h.layer % 2 ^ 16, h.alternateGroup % 2 ^ 16,
   h.volume % 2 ^ 16, h.reserved3 % 2 ^ 16, keptMatrix h.matrix, h.width % 2 ^ 32, h.height % 2 ^ 32⟩

def keptMdhd (h : Mdhd) : Mdhd :=
  ⟨h.version, h.flags, keptTime h.version h.creation, keptTime h.version h.modification, h.timeScale % 2 ^ 32,
   keptTime h.version h.duration, h.language % 2 ^ 16, h.quality % 2 ^ 16⟩

def keptMvhd (h : Mvhd) : Mvhd :=
  ⟨h.version, h.flags, keptTime h.version h.creation, keptTime h.version h.modification, h.timeScale % 2 ^ 32,
   keptTime h.version h.duration, h.rate % 2 ^ 32, h.volume % 2 ^ 16, h.reserved, keptMatrix h.matrix,
   h.previewTime % 2 ^ 32, h.previewDuration % 2 ^ 32, h.posterTime % 2 ^ 32, h.selectionTime % 2 ^ 32,
   h.selectionDuration % 2 ^ 32, h.currentTime % 2 ^ 32, h.nextTrackID % 2 ^ 32⟩

def FitsTime (version t : Nat) : Prop := t < if version = 1 then 2 ^ 64 else 2 ^ 32

def FitsMatrix (m : Matrix) : Prop :=
  m.a < 2 ^ 32 ∧ m.b < 2 ^ 32 ∧ m.u < 2 ^ 32 ∧ m.c < 2 ^ 32 ∧ m.d < 2 ^ 32 ∧ m.v < 2 ^ 32 ∧ m.x < 2 ^ 32 ∧
  m.y < 2 ^ 32 ∧ m.w < 2 ^ 32

/-- Every field fits its width: times 64 bits in version 1 and 32 bits in version 0. -/
structure FitsTkhd (h : Tkhd) : Prop where
  times : FitsTime h.version h.creation ∧ FitsTime h.version h.modification ∧ FitsTime h.version h.duration
  words : h.trackID < 2 ^ 32 ∧ h.reserved1 < 2 ^ 32 ∧ h.width < 2 ^ 32 ∧ h.height < 2 ^ 32
  halves : h.layer < 2 ^ 16 ∧ h.alternateGroup < 2 ^ 16 ∧ h.volume < 2 ^ 16 ∧ h.reserved3 < 2 ^ 16
  matrix : FitsMatrix h.matrix

structure FitsMdhd (h : Mdhd) : Prop where
  times : FitsTime h.version h.creation ∧ FitsTime h.version h.modification ∧ FitsTime h.version h.duration
  rest : h.timeScale < 2 ^ 32 ∧ h.language < 2 ^ 16 ∧ h.quality < 2 ^ 16

structure FitsMvhd (h : Mvhd) : Prop where
  times : FitsTime h.version h.creation ∧ FitsTime h.version h.modification ∧ FitsTime h.version h.duration
  words : h.timeScale < 2 ^ 32 ∧ h.rate < 2 ^ 32 ∧ h.previewTime < 2 ^ 32 ∧ h.previewDuration < 2 ^ 32 ∧
    h.posterTime < 2 ^ 32 ∧ h.selectionTime < 2 ^ 32 ∧ h.selectionDuration < 2 ^ 32 ∧ h.currentTime < 2 ^ 32 ∧
    h.nextTrackID < 2 ^ 32
  volume : h.volume < 2 ^ 16
  matrix : FitsMatrix h.matrix

theorem emits_time (version t : Nat) : Emits (putTime version t) (timeBytes version t) := by
  unfold putTime timeBytes
  split
  · exact emits_put64 _
  · exact emits_put32 _

theorem parses_time (version t : Nat) : Parses (getTime version) (timeBytes version t) (keptTime version t) := by
  unfold getTime timeBytes keptTime
  split
  · exact parses_get64 _
  · exact parses_get32 _

theorem timeBytes_length (version t : Nat) : (timeBytes version t).length = if version = 1 then 8 else 4 := by
  unfold timeBytes; split <;> simp

theorem matrixBytes_eq (m : Matrix) : matrixBytes m =
    be 4 m.a ++ (be 4 m.b ++ (be 4 m.u ++ (be 4 m.c ++ (be 4 m.d ++ (be 4 m.v ++ (be 4 m.x ++ (be 4 m.y ++ be 4 m.w))))))) := by
  simp [matrixBytes]

theorem emits_matrix (m : Matrix) {k : W} {bs : Bytes} (h : EmitsFull k bs) :
    EmitsFull (putMatrix m k) (matrixBytes m ++ bs) := by
  rw [matrixBytes_eq]
  simp only [List.append_assoc]
  unfold putMatrix
  emits
  exact h

theorem parses_matrix (m : Matrix) : Parses getMatrix (matrixBytes m) (keptMatrix m) := by
  rw [matrixBytes_eq]
  unfold getMatrix
  parses

macro_rules | `(tactic| emit1) => `(tactic| with_reducible exact emits_time _ _)
macro_rules | `(tactic| parse1) => `(tactic| with_reducible first | exact parses_time _ _ | exact parses_matrix _)

theorem keptTime_eq {version t : Nat} (h : FitsTime version t) : keptTime version t = t := by
  unfold FitsTime at h
  unfold keptTime
  split at h
  · next e => rw [if_pos e, Nat.mod_eq_of_lt h]
  · next e => rw [if_neg e, Nat.mod_eq_of_lt h]

theorem keptMatrix_eq {m : Matrix} (h : FitsMatrix m) : keptMatrix m = m := by
  obtain ⟨h1, h2, h3, h4, h5, h6, h7, h8, h9⟩ := h
  simp only [keptMatrix, Nat.mod_eq_of_lt, h1, h2, h3, h4, h5, h6, h7, h8, h9]

/-- **C44, track header.** Written in the standard layout and parsed again, for all field values:
every field comes back, cut to its width; so the header is the same if all fields fit. -/
theorem c44_track_header (h : Tkhd) (hv : h.version < 256) (hf : h.flags < 2 ^ 24) (hr : h.reserved2.length = 8) :
    BoxRoundTrip (tkhdSize h) (tkhdSerialize h) tkhdParse (keptTkhd h) (tkhdLayout h) ∧
    (FitsTkhd h → keptTkhd h = h) := by
  constructor
  · refine BoxRoundTrip.ofFull (type := typeTkhd) ?_ ?_ ?_ ?_ (by decide) (by decide)
    · simp only [List.append_assoc]
      emits
      refine emits_matrix _ ?_
      emits
    · apply Parses.at
      unfold tkhdParse
      refine (parses_versionFlags hv hf).bind ?_
      simp only [List.append_assoc]
      parses
    · simp only [List.length_append, be_length, timeBytes_length, matrixBytes_eq, hr, tkhdSize]
      split <;> rfl
    · unfold tkhdSize; split <;> decide
  · intro ⟨⟨a1, a2, a3⟩, ⟨b1, b2, b3, b4⟩, ⟨c1, c2, c3, c4⟩, d⟩
    simp only [keptTkhd, keptTime_eq, keptMatrix_eq, Nat.mod_eq_of_lt, a1, a2, a3, b1, b2, b3, b4, c1, c2, c3, c4, d]

/-- **C44, media header.** -/
theorem c44_media_header (h : Mdhd) (hv : h.version < 256) (hf : h.flags < 2 ^ 24) :
    BoxRoundTrip (mdhdSize h) (mdhdSerialize h) mdhdParse (keptMdhd h) (mdhdLayout h) ∧
    (FitsMdhd h → keptMdhd h = h) := by
  constructor
  · refine BoxRoundTrip.ofFull (type := typeMdhd) ?_ ?_ ?_ ?_ (by decide) (by decide)
    · simp only [List.append_assoc]
      emits
    · apply Parses.at
      unfold mdhdParse
      refine (parses_versionFlags hv hf).bind ?_
      simp only [List.append_assoc]
      parses
    · simp only [List.length_append, be_length, timeBytes_length, mdhdSize]
      split <;> rfl
    · unfold mdhdSize; split <;> decide
  · intro ⟨⟨a1, a2, a3⟩, ⟨b1, b2, b3⟩⟩
    simp only [keptMdhd, keptTime_eq, Nat.mod_eq_of_lt, a1, a2, a3, b1, b2, b3]

/-- **C44, movie header.** -/
theorem c44_movie_header (h : Mvhd) (hv : h.version < 256) (hf : h.flags < 2 ^ 24) (hr : h.reserved.length = 10) :
    BoxRoundTrip (mvhdSize h) (mvhdSerialize h) mvhdParse (keptMvhd h) (mvhdLayout h) ∧
    (FitsMvhd h → keptMvhd h = h) := by
  constructor
  · refine BoxRoundTrip.ofFull (type := typeMvhd) ?_ ?_ ?_ ?_ (by decide) (by decide)
    · simp only [List.append_assoc]
      emits
      refine emits_matrix _ ?_
      emits
    · apply Parses.at
      unfold mvhdParse
      refine (parses_versionFlags hv hf).bind ?_
      simp only [List.append_assoc]
      parses
    · simp only [List.length_append, be_length, timeBytes_length, matrixBytes_eq, hr, mvhdSize]
      split <;> rfl
    · unfold mvhdSize; split <;> decide
  · intro ⟨⟨a1, a2, a3⟩, ⟨b1, b2, b3, b4, b5, b6, b7, b8, b9⟩, c, d⟩
    simp only [keptMvhd, keptTime_eq, keptMatrix_eq, Nat.mod_eq_of_lt, a1, a2, a3, b1, b2, b3, b4, b5, b6, b7, b8,
      b9, c, d]

/-- A version 1 header with times that need 64 bits. -/
example : FitsTkhd ⟨1, 7, 2 ^ 40, 2 ^ 41, 3, 0, 2 ^ 33, [0, 0, 0, 0, 0, 0, 0, 0], 1, 2, 256, 0,
    ⟨65536, 0, 0, 0, 65536, 0, 0, 0, 1073741824⟩, 640, 480⟩ :=
  ⟨by unfold FitsTime; decide, by decide, by decide, by unfold FitsMatrix; decide⟩
example : FitsMdhd ⟨0, 0, 2 ^ 31, 5, 90000, 2 ^ 32 - 1, 0x55c4, 0⟩ := ⟨by unfold FitsTime; decide, by decide⟩
example : FitsMvhd ⟨1, 0, 2 ^ 40, 2 ^ 41, 600, 2 ^ 33, 65536, 256, [0, 0, 0, 0, 0, 0, 0, 0, 0, 0],
    ⟨65536, 0, 0, 0, 65536, 0, 0, 0, 1073741824⟩, 1, 2, 3, 4, 5, 6, 7⟩ :=
  ⟨by unfold FitsTime; decide, by decide, by decide, by unfold FitsMatrix; decide⟩

/-- Version 0 keeps 32 bits only: a duration of 2^32 + 5 is read as 5. -/
theorem c44_long_duration_cut : (keptMdhd ⟨0, 0, 0, 0, 90000, 2 ^ 32 + 5, 0, 0⟩).duration = 5 := by decide

end Verif.Headers
