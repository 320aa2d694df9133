import Verif.Core.Box

/-!
# Movie, track and media header boxes
MovieHeaderAtom.c, TrackHeaderAtom.c, MediaHeaderAtom.c

The C fields are `u32` or `u64`; here `Nat`. The `PUT` macros keep the low bytes.
-/

namespace Verif.Headers

/-- `qt_matrixA` ... `qt_matrixW`. -/
structure Matrix where
  a : Nat
  b : Nat
  u : Nat
  c : Nat
  d : Nat
  v : Nat
  x : Nat
  y : Nat
  w : Nat
  deriving DecidableEq, Repr

/-- TrackHeaderAtom.c 68-76, MovieHeaderAtom.c 64-72, followed by `k`. -/
def putMatrix (m : Matrix) (k : W) : W :=
  put32 m.a ;; put32 m.b ;; put32 m.u ;; put32 m.c ;; put32 m.d ;; put32 m.v ;; put32 m.x ;; put32 m.y ;;
  put32 m.w ;; k

/-- TrackHeaderAtom.c 144-152, MovieHeaderAtom.c 138-146. -/
def getMatrix : P Matrix := do
  let a ← get32
  let b ← get32
  let u ← get32
  let c ← get32
  let d ← get32
  let v ← get32
  let x ← get32
  let y ← get32
  let w ← get32
  pure ⟨a, b, u, c, d, v, x, y, w⟩

/-- A time or duration field: 64 bits in version 1, 32 bits otherwise (`PUT64`/`PUT32`). -/
def putTime (version t : Nat) : W := if version = 1 then put64 t else put32 t

/-- The reverse: `GET64`, or `GET32_V_MSG` and assignment to the `u64` field. -/
def getTime (version : Nat) : P Nat := if version = 1 then get64 else get32

/-! ## Track header -/

structure Tkhd where
  version : Nat
  flags : Nat
  creation : Nat
  modification : Nat
  trackID : Nat
  reserved1 : Nat
  duration : Nat
  reserved2 : Bytes
  layer : Nat
  alternateGroup : Nat
  volume : Nat
  reserved3 : Nat
  matrix : Matrix
  width : Nat
  height : Nat
  deriving DecidableEq, Repr

def typeTkhd : Nat := 0x746b6864

/-- `calculateSize`: TrackHeaderAtom.c 86-100. -/
def tkhdSize (h : Tkhd) : Nat := 12 + (8 + 4 * 2 + 11 * 4) + (if h.version = 1 then 3 * 8 + 2 * 4 else 5 * 4)

/-- `serialize`: TrackHeaderAtom.c 36-84. The two branches differ in the width of the times only. -/
def tkhdSerialize (h : Tkhd) : W :=
  serFull (tkhdSize h) typeTkhd h.version h.flags ;;
  putTime h.version h.creation ;; putTime h.version h.modification ;;
  put32 h.trackID ;; put32 h.reserved1 ;; putTime h.version h.duration ;;
  putBytes h.reserved2 ;; put16 h.layer ;; put16 h.alternateGroup ;; put16 h.volume ;; put16 h.reserved3 ;;
  putMatrix h.matrix (put32 h.width ;; put32 h.height ;; W.assertFull)

/-- `createFromInputStream`: TrackHeaderAtom.c 102-159. -/
def tkhdParse (_ : Hdr) : P Tkhd := do
  let vf ← getVersionFlags
  let creation ← getTime vf.1
  let modification ← getTime vf.1
  let trackID ← get32
  let reserved1 ← get32
  let duration ← getTime vf.1
  let reserved2 ← getBytes 8
  let layer ← get16
  let alternateGroup ← get16
  let volume ← get16
  let reserved3 ← get16
  let matrix ← getMatrix
  let width ← get32
  let height ← get32
  pure ⟨vf.1, vf.2, creation, modification, trackID, reserved1, duration, reserved2, layer, alternateGroup,
    volume, reserved3, matrix, width, height⟩

/-! ## Media header -/

structure Mdhd where
  version : Nat
  flags : Nat
  creation : Nat
  modification : Nat
  timeScale : Nat
  duration : Nat
  language : Nat
  quality : Nat
  deriving DecidableEq, Repr

def typeMdhd : Nat := 0x6d646864

/-- `calculateSize`: MediaHeaderAtom.c 68-82. -/
def mdhdSize (h : Mdhd) : Nat := 12 + 4 + (if h.version = 1 then 3 * 8 + 4 else 4 * 4)

/-- `serialize`: MediaHeaderAtom.c 36-66. -/
def mdhdSerialize (h : Mdhd) : W :=
  serFull (mdhdSize h) typeMdhd h.version h.flags ;;
  putTime h.version h.creation ;; putTime h.version h.modification ;; put32 h.timeScale ;;
  putTime h.version h.duration ;; put16 h.language ;; put16 h.quality ;; W.assertFull

/-- `createFromInputStream`: MediaHeaderAtom.c 84-118. -/
def mdhdParse (_ : Hdr) : P Mdhd := do
  let vf ← getVersionFlags
  let creation ← getTime vf.1
  let modification ← getTime vf.1
  let timeScale ← get32
  let duration ← getTime vf.1
  let language ← get16
  let quality ← get16
  pure ⟨vf.1, vf.2, creation, modification, timeScale, duration, language, quality⟩

/-! ## Movie header -/

structure Mvhd where
  version : Nat
  flags : Nat
  creation : Nat
  modification : Nat
  timeScale : Nat
  duration : Nat
  rate : Nat
  volume : Nat
  reserved : Bytes
  matrix : Matrix
  previewTime : Nat
  previewDuration : Nat
  posterTime : Nat
  selectionTime : Nat
  selectionDuration : Nat
  currentTime : Nat
  nextTrackID : Nat
  deriving DecidableEq, Repr

def typeMvhd : Nat := 0x6d766864

/-- `calculateSize`: MovieHeaderAtom.c 88-103. -/
def mvhdSize (h : Mvhd) : Nat := 12 + (17 * 4 + 1 * 2 + 10) + (if h.version = 1 then 3 * 8 + 1 * 4 else 4 * 4)

/-- `serialize`: MovieHeaderAtom.c 37-86. -/
def mvhdSerialize (h : Mvhd) : W :=
  serFull (mvhdSize h) typeMvhd h.version h.flags ;;
  putTime h.version h.creation ;; putTime h.version h.modification ;; put32 h.timeScale ;;
  putTime h.version h.duration ;; put32 h.rate ;; put16 h.volume ;; putBytes h.reserved ;;
  putMatrix h.matrix (put32 h.previewTime ;; put32 h.previewDuration ;; put32 h.posterTime ;;
    put32 h.selectionTime ;; put32 h.selectionDuration ;; put32 h.currentTime ;; put32 h.nextTrackID ;;
    W.assertFull)

/-- `createFromInputStream`: MovieHeaderAtom.c 105-158. -/
def mvhdParse (_ : Hdr) : P Mvhd := do
  let vf ← getVersionFlags
  let creation ← getTime vf.1
  let modification ← getTime vf.1
  let timeScale ← get32
  let duration ← getTime vf.1
  let rate ← get32
  let volume ← get16
  let reserved ← getBytes 10
  let matrix ← getMatrix
  let previewTime ← get32
  let previewDuration ← get32
  let posterTime ← get32
  let selectionTime ← get32
  let selectionDuration ← get32
  let currentTime ← get32
  let nextTrackID ← get32
  pure ⟨vf.1, vf.2, creation, modification, timeScale, duration, rate, volume, reserved, matrix, previewTime,
    previewDuration, posterTime, selectionTime, selectionDuration, currentTime, nextTrackID⟩

/-! ## Media language -/

/-- `MP4SetMediaLanguage`: MP4Media.c 388-413, for three character codes (values of `char`, here
0..127): the `int` differences are shifted and joined to a `u32`. A negative difference shifted left
is undefined. -/
def setLanguage (a b c : Nat) : Res Nat :=
  if a < 0x60 ∨ b < 0x60 then .ub
  else .ok (((a - 0x60) <<< 10 ||| (b - 0x60) <<< 5) ||| (if c < 0x60 then w32(c + (4294967296 - 0x60)) else c - 0x60))

/-- `MP4GetMediaLanguage`: MP4Media.c 440-463. -/
def getLanguage (l : Nat) : Nat × Nat × Nat :=
  ((l >>> 10 &&& 0x1F) + 0x60, (l >>> 5 &&& 0x1F) + 0x60, (l &&& 0x1F) + 0x60)

end Verif.Headers
