import Verif.Core.Box

/-!
# Edit list: EditListAtom.c
-/

namespace Verif.Elst

/-- `edtsEntry`: EditListAtom.c 31-38. -/
structure Entry where
  duration : Nat
  mediaTime : Int
  rate : Nat
  empty : Bool
  deriving DecidableEq, Repr

/-- `getTrackOffset`: EditListAtom.c 74-103. -/
def getTrackOffset (es : List Entry) : Nat :=
  match es with
  | [] => 0
  | e :: _ => if e.empty then w32(e.duration) else 0

/-- `setTrackOffset`: EditListAtom.c 105-161; the entry list through its sequence behaviour. -/
def setTrackOffset (es : List Entry) (start trackDuration : Nat) : List Entry :=
  match es with
  | [] => [⟨start, -1, 1, true⟩, ⟨trackDuration, 0, 1, false⟩]
  | e :: rest => if e.empty then { e with duration := start } :: rest
    else ⟨start, -1, 1, true⟩ :: es

/-- `u64 = s32` (a positive value here). -/
def startDuration (start : Int) : Nat := start.toNat

/-- `insertSegment`: EditListAtom.c 163-221. -/
def insertSegment (es : List Entry) (start mediaStart : Int) (duration rate : Nat) : Res (List Entry) :=
  if es = [] then
    .ok ((if start > 0 then [⟨startDuration start, -1, 1, true⟩] else []) ++ [⟨duration, mediaStart, rate, false⟩])
  else if start = -1 then .ok (es ++ [⟨duration, mediaStart, rate, false⟩])
  else .err .notImplemented

/-- The loop of `getEffectiveDuration`: EditListAtom.c 223-247. -/
def effectiveDuration (es : List Entry) : Nat :=
  es.foldl (fun d e => w32(d + w32(e.duration))) 0

/-- `isEmptyEdit`: EditListAtom.c 249-272. -/
def isEmptyEdit (es : List Entry) (n : Nat) : Res Bool :=
  if n = 1 ∧ es.length = 0 then .ok false
  else if n = 0 ∨ n > es.length then .err .badParam
  else match es[n - 1]? with
    | some e => .ok e.empty
    | none => .ub

/-- The loop of `getIndSegmentTime`, over the entries from index `i` on; `out` are the output
parameters (movie time, media time, duration). -/
def segLoop (n : Nat) : List Entry → Nat → Nat → Option (Nat × Int × Nat) → Option (Nat × Int × Nat)
  | [], _, _, out => out
  | e :: es, i, t, out =>
    if i = n - 1 then segLoop n es (i + 1) t (some (t, (if e.empty then -1 else e.mediaTime), e.duration))
    else segLoop n es (i + 1) w64(t + e.duration) out

/-- `getIndSegmentTime`: EditListAtom.c 274-318. -/
def getIndSegmentTime (es : List Entry) (n : Nat) : Res (Nat × Int × Nat) :=
  if n = 0 ∨ n > es.length then .err .badParam
  else match segLoop n es 0 0 none with
    | some r => .ok r
    | none => .ub

/-- `'elst'` -/
def typeElst : Nat := 0x656C7374

/-- `calculateSize`: EditListAtom.c 429-447. -/
def calcSize (version : Nat) (es : List Entry) : Nat :=
  w32(w32(12 + 4) + w32(es.length * ((if version = 1 then 16 else 8) + 4)))

/-- The body of the loop of `serialize`; `PUT32_V` keeps the low 32 bits. -/
def putEntry (version : Nat) (e : Entry) : W :=
  (if version = 1 then put64 e.duration ;; put64 (u64i e.mediaTime)
   else put32 w32(e.duration) ;; put32 (u32i e.mediaTime)) ;;
  put32 w32(e.rate <<< 16)

/-- `serialize`: EditListAtom.c 389-427. -/
def serialize (version flags : Nat) (es : List Entry) : W :=
  serFull (calcSize version es) typeElst version flags ;; put32 es.length ;;
  W.each (putEntry version) es ;; W.assertFull

/-- Lines 490-496, with `USE_OLD_FILES_WORKAROUND`: the field 1, written by earlier versions for the rate 1, is not
shifted. -/
def rateOf (r : Nat) : Nat := if r ≠ 1 then r >>> 16 else r

/-- The body of the loop of `createFromInputStream`. -/
def getEntry (version : Nat) : P Entry := do
  if version = 1 then do
    let d ← get64
    let m ← get64
    let r ← get32
    pure ⟨d, s64 m, rateOf r, decide (s64 m < 0)⟩
  else do
    let d ← get32
    let m ← get32
    let r ← get32
    pure ⟨d, s32 m, rateOf r, decide (s32 m < 0)⟩

/-- `createFromInputStream`: EditListAtom.c 449-507. -/
def parseBody (_ : Hdr) : P ((Nat × Nat) × List Entry) := do
  let vf ← getVersionFlags
  let n ← get32
  let es ← P.repeat n (getEntry vf.1)
  pure (vf, es)

end Verif.Elst
