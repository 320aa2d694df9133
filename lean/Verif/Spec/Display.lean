import Verif.Model.Display
import Verif.Spec.Batch
import Verif.Props.C44

/-!
# Specification: what was set last
-/

namespace Verif.Display

open Verif.Headers

structure TrackLook where
  id : Nat
  enabled : Bool
  matrix : Matrix
  layer : Int
  width : Nat
  height : Nat
  volume : Int
  deriving DecidableEq, Repr

structure Look where
  matrix : Matrix
  rate : Nat
  volume : Int
  timeScale : Nat
  tracks : List TrackLook
  deriving DecidableEq, Repr

/-- The matrix that changes nothing: fixed point numbers, the last column with 30 bits after the point. -/
def unit : Matrix := ⟨2 ^ 16, 0, 0, 0, 2 ^ 16, 0, 0, 0, 2 ^ 30⟩

def TrackLook.set (t : TrackLook) : TrackCall → TrackLook
  | .enabled e => { t with enabled := e != 0 }
  | .matrix m => { t with matrix := m.getD unit }
  | .layer l => { t with layer := l }
  | .dimensions w h => { t with width := w, height := h }
  | .volume v => { t with volume := v }

/-- A new movie: normal speed and volume. -/
def Look.new : Look := ⟨unit, 65536, 256, 600, []⟩

/-- A new track: enabled, 320 by 240 if there is something to see, else at normal volume if there is something to hear. -/
def TrackLook.new (visual audio : Bool) (id : Nat) : TrackLook :=
  ⟨id, true, unit, 0, if visual then 320 else 0, if visual then 240 else 0, if visual then 0 else if audio then 256 else 0⟩

def Look.step (s : Look) : Call → Look
  | .newTrack kind id _ => { s with tracks := s.tracks ++ [TrackLook.new (kind.testBit 1) (kind.testBit 2) id] }
  | .track i c => { s with tracks := s.tracks.modify i (·.set c) }
  | .matrix m => { s with matrix := m.getD unit }
  | .rate r => { s with rate := r }
  | .volume v => { s with volume := v }
  | .timeScale t => { s with timeScale := if t = 0 then s.timeScale else t }
  | .reopen => s

def IsS16 (v : Int) : Prop := -32768 ≤ v ∧ v < 32768

/-- The values are of the types of the parameters; widths and heights are below 2^16. -/
def TrackCall.Fits : TrackCall → Prop
  | .enabled _ => True
  | .matrix m => ∀ x, m = some x → FitsMatrix x
  | .layer l => IsS16 l
  | .dimensions w h => w < 65536 ∧ h < 65536
  | .volume v => IsS16 v

/-- A call that can be made when there are `n` tracks. -/
def Call.Fits (n : Nat) : Call → Prop
  | .newTrack _ id _ => id < 2 ^ 32
  | .track i c => i < n ∧ c.Fits
  | .matrix m => ∀ x, m = some x → FitsMatrix x
  | .rate r => r < 2 ^ 32
  | .volume v => IsS16 v
  | .timeScale t => t < 2 ^ 32
  | .reopen => True

/-- Each call can be made when its turn comes. -/
def AllFit : Nat → List Call → Prop
  | _, [] => True
  | n, c :: l => c.Fits n ∧ AllFit (match c with | .newTrack .. => n + 1 | _ => n) l

/-- All answers for a track and for a movie. -/
def trackAnswers (h : Tkhd) : TrackLook :=
  ⟨h.trackID, getEnabled h = 1, getMatrixOf h, getLayer h, (getDimensions h).1, (getDimensions h).2, getVolume h⟩

def answers (m : Movie) : Look :=
  ⟨getMovieMatrix m, getRate m, getMovieVolume m, getTimeScale m, m.tracks.map trackAnswers⟩

end Verif.Display
