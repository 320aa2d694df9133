import Verif.Core.Box

/-!
# Time-to-sample table: TimeToSampleAtom.c

Entries are pairs `(sampleCount, sampleDuration)`, both `u32`. The entry list is an `MP4LinkedList`,
used here through its sequence behaviour (property C01). `currentEntry` always points at the last
entry (it is set exactly when an entry is appended: lines 107 and 414), so it is not stored.
-/

namespace Verif.Stts

/-- `MP4TimeToSampleAtom`: MP4Atoms.h 785-802. -/
structure Stts where
  entries : List (Nat × Nat)
  /-- `foundEntry != NULL` -/
  found : Bool
  foundTime : Nat
  foundSample : Nat
  foundNum : Nat
  deriving DecidableEq, Repr

/-- A table with no cached query position (the state after creation or parsing). -/
def ofEntries (es : List (Nat × Nat)) : Stts := ⟨es, false, 0, 0, 0⟩

/-- `MP4CreateTimeToSampleAtom`: TimeToSampleAtom.c 422-456. -/
def create : Stts := ofEntries []

/-- `getTotalDuration`: TimeToSampleAtom.c 67-90. -/
def totalDuration (es : List (Nat × Nat)) : Nat :=
  es.foldl (fun t e => w32(t + w32(e.1 * e.2))) 0

/-- `addSample`: TimeToSampleAtom.c 92-117. -/
def addSample (es : List (Nat × Nat)) (duration : Nat) : List (Nat × Nat) :=
  match es.getLast? with
  | none => es ++ [(1, duration)]
  | some (c, d) =>
    if d ≠ duration then es ++ [(1, duration)] else es.dropLast ++ [(w32(c + 1), d)]

/-- The loop of `addSamples`: TimeToSampleAtom.c 131-137, from index `i`. -/
def addLoop (durations : List Nat) (has : Bool) : Nat → Nat → List (Nat × Nat) → Res (List (Nat × Nat))
  | 0, _, es => .ok es
  | n + 1, i, es =>
    match durations[if has then i else 0]? with
    | some d => addLoop durations has n (i + 1) (addSample es d)
    | none => .ub

/-- `addSamples`: TimeToSampleAtom.c 119-143. `durations` is the content of the handle as an array
of `u32`; reading past its end is undefined. -/
def addSamples (es : List (Nat × Nat)) (sampleCount : Nat) (durations : List Nat) :
    Res (List (Nat × Nat)) :=
  addLoop durations (decide (durations.length * 4 > 4)) sampleCount 0 es

/-- `extendLastSampleDuration`: TimeToSampleAtom.c 145-168. With no entry `currentEntry` is NULL. -/
def extendLast (es : List (Nat × Nat)) (duration : Nat) : Res (List (Nat × Nat)) :=
  match es.getLast? with
  | none => .ub
  | some (c, d) =>
    if c = 1 then .ok (es.dropLast ++ [(c, w32(d + duration))])
    else .ok (addSample (es.dropLast ++ [(w32(c + 4294967295), d)]) (w32(d + duration)))

/-- State of the query loop. -/
structure Scan where
  cts : Nat
  dur : Nat
  time : Nat
  sample : Nat
  num : Nat
  deriving DecidableEq, Repr

/-- The query loop: TimeToSampleAtom.c 204-225, over the entries from index `num` on. -/
def scan (n : Nat) : List (Nat × Nat) → Scan → Scan
  | [], s => s
  | (c, d) :: es, s =>
    if w32(s.sample + c) > n then
      { s with cts := w64(s.time + w32(w32(n + 4294967296 - s.sample) * d)), dur := d }
    else
      scan n es { s with sample := w32(s.sample + c), time := w64(s.time + w32(c * d)), num := s.num + 1 }

/-- `getTimeForSampleNumber`: TimeToSampleAtom.c 170-236: `(sampleCTS, sampleDuration)` and the
updated cache. An unset CTS is `-1` (all ones). -/
def getTime (t : Stts) (n : Nat) : (Nat × Nat) × Stts :=
  let s0 : Scan :=
    if t.found ∧ t.foundSample < n then ⟨18446744073709551615, 0, t.foundTime, t.foundSample, t.foundNum⟩
    else ⟨18446744073709551615, 0, 0, 1, 0⟩
  let s := scan n (t.entries.drop s0.num) s0
  ((s.cts, s.dur),
    { t with found := decide (s0.num < t.entries.length), foundTime := s.time,
             foundSample := s.sample, foundNum := s.num })

/-- Outputs of `findSamples`; times are `s64` held as 64-bit patterns (`-1` is all ones), the
duration is indeterminate until set. -/
structure Find where
  prior : Nat
  exact : Nat
  next : Nat
  num : Nat
  dur : Option Nat
  found : Bool
  deriving DecidableEq, Repr

/-- The `s64` value `-1`. -/
def m1 : Nat := 18446744073709551615

/-- The loop of `findSamples`: TimeToSampleAtom.c 263-331. -/
def findLoop (t : Nat) : List (Nat × Nat) → Nat → Nat → Find → Res Find
  | [], _, _, f => .ok f
  | (c, d) :: es, entryTime, sn, f =>
    let entryDur := w32(d * c)
    let final := w64(entryTime + entryDur)
    if entryTime = t ∧ w64(entryTime + d) ≤ final then
      .ok { f with exact := entryTime, num := sn, dur := some d, found := true,
                   next := w64(entryTime + d) }
    else if entryTime > t then .ok { f with next := entryTime }
    else
      let f := if entryTime = t then { f with exact := entryTime, num := sn, dur := some d, found := true }
        else { f with prior := entryTime }
      if final < t then
        findLoop t es w64(entryTime + entryDur) w32(sn + c) { f with prior := final }
      else if final = t then
        findLoop t es w64(entryTime + entryDur) w32(sn + c)
          { f with prior := w64(final + 18446744073709551616 - d), exact := final, num := w32(sn + c),
                   dur := some d, found := true }
      else if d = 0 then .ub
      else
        let best := w32((t - entryTime) / d)
        let f := if f.found then f else
          { f with num := w32(sn + best), dur := some d, prior := w64(entryTime + w32(best * d)),
                   found := true }
        let nextTime := w64(w64(entryTime + w32(best * d)) + d)
        if nextTime ≤ final then .ok { f with next := nextTime }
        else findLoop t es w64(entryTime + entryDur) w32(sn + c) f

/-- `findSamples`: TimeToSampleAtom.c 238-337. -/
def findSamples (es : List (Nat × Nat)) (t : Nat) : Res Find :=
  findLoop t es 0 1 ⟨m1, m1, m1, 0, none, false⟩

/-- `MP4MediaTimeToSampleNum`: MP4Media.c 2014-2100, without composition offsets: sample number,
DTS and duration. -/
def mediaTimeToSampleNum (es : List (Nat × Nat)) (t : Nat) : Res (Nat × Nat × Option Nat) :=
  match findSamples es t with
  | .ok f =>
    if f.exact ≠ m1 then .ok (f.num, f.exact, f.dur)
    else
      let dts := if f.prior ≠ m1 then f.prior else f.next
      match findSamples es dts with
      | .ok g => if dts = m1 ∨ g.num = 0 then .err .internalErr else .ok (g.num, g.exact, g.dur)
      | .err e => .err e
      | .ub => .ub
  | .err e => .err e
  | .ub => .ub

/-- `'stts'` -/
def typeStts : Nat := 0x73747473

/-- `calculateSize`: TimeToSampleAtom.c 369-385. -/
def calcSize (es : List (Nat × Nat)) : Nat := w32(12 + w32(4 + w32(8 * es.length)))

/-- `serialize`: TimeToSampleAtom.c 339-367. -/
def serialize (version flags : Nat) (es : List (Nat × Nat)) : W :=
  serFull (calcSize es) typeStts version flags ;; put32 es.length ;;
  W.each (fun e => put32 e.1 ;; put32 e.2) es ;; W.assertFull

/-- `createFromInputStream`: TimeToSampleAtom.c 387-420. -/
def parseBody (_ : Hdr) : P ((Nat × Nat) × List (Nat × Nat)) := do
  let vf ← getVersionFlags
  let n ← get32
  let es ← P.repeat n (do
    let c ← get32
    let d ← get32
    pure (c, d))
  pure (vf, es)

end Verif.Stts
