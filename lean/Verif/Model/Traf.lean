import Verif.Core.Box

/-!
# Track fragments
TrackFragmentAtom.c, TrackFragmentHeaderAtom.c, TrackFragmentDecodeTimeAtom.c, TrackFragmentRunAtom.c,
`mergeFragments` in MovieFragmentAtom.c

`samplecount` is the length of the list of entries. Simplification: the lists of group descriptions, group
maps and auxiliary information of a fragment are empty when it is written, and their boxes are skipped
when it is read; they have their own models.
-/

namespace Verif.Traf

/-- `MP4TrackRunEntry`: MP4Atoms.h 1530-1536. -/
structure Entry where
  duration : Nat
  size : Nat
  flags : Nat
  offset : Nat
  deriving DecidableEq, Repr

/-- `MP4TrackRunAtom`: MP4Atoms.h 1601-1612. `data_offset` is a `s32`; `dataOffset` is its bit pattern. -/
structure Run where
  version : Nat
  flags : Nat
  dataOffset : Nat
  firstFlags : Nat
  entries : List Entry
  deriving DecidableEq, Repr

/-- `MP4TrackFragmentHeaderAtom`: MP4Atoms.h 1467-1476. -/
structure Tfhd where
  version : Nat
  flags : Nat
  trackId : Nat
  base : Nat
  descIndex : Nat
  duration : Nat
  size : Nat
  sampleFlags : Nat
  deriving DecidableEq, Repr

/-- `MP4TrackFragmentDecodeTimeAtom`: MP4Atoms.h 1552-1556. -/
structure Tfdt where
  version : Nat
  flags : Nat
  time : Nat
  deriving DecidableEq, Repr

/-- The defaults of a `MP4TrackExtendsAtom`: MP4Atoms.h 1455-1465. -/
structure Trex where
  descIndex : Nat
  duration : Nat
  size : Nat
  sampleFlags : Nat
  deriving DecidableEq, Repr

/-- `MP4TrackFragmentAtom`: MP4Atoms.h 1478-1517. -/
structure Traf where
  trex : Trex
  tfhd : Tfhd
  tfdt : Option Tfdt
  runs : List Run
  deriving DecidableEq, Repr

def typeTraf : Nat := 0x74726166
def typeTfhd : Nat := 0x74666864
def typeTfdt : Nat := 0x74666474
def typeTrun : Nat := 0x7472756E

/-- `flags & mask`. -/
def has (flags mask : Nat) : Bool := flags &&& mask != 0

/-! ## Track run: TrackFragmentRunAtom.c -/

/-- `calculateDefaults`: lines 42-55. -/
def calculateDefaults (index : Nat) (h : Tfhd) (r : Run) : Tfhd :=
  match r.entries with
  | [] => h
  | e :: es =>
    { h with
      duration := if h.duration = 0 then e.duration else h.duration
      size := if h.size = 0 then e.size else h.size
      sampleFlags := if h.sampleFlags = 0 ∧ index ≤ (e :: es).length then
          ((e :: es)[index - 1]?.getD e).flags else h.sampleFlags }

/-- One pass of the loop of `setFlags`: lines 74-79. `first` is `i == 0`. -/
def flagStep (h : Tfhd) (first : Bool) (flags : Nat) (e : Entry) : Nat :=
  let flags := if e.duration ≠ h.duration then flags ||| 0x100 else flags
  let flags := if e.size ≠ h.size then flags ||| 0x200 else flags
  let flags := if ¬ first ∧ e.flags ≠ h.sampleFlags then (flags &&& 0xFFFFFFFB) ||| 0x400 else flags
  if e.offset ≠ 0 then flags ||| 0x800 else flags

/-- The loop of `setFlags`, which ends early: lines 72-82. -/
def flagLoop (h : Tfhd) : Bool → Nat → List Entry → Nat
  | _, flags, [] => flags
  | first, flags, e :: es =>
    let flags := flagStep h first flags e
    if flags &&& 0xF00 = 0xF00 then flags else flagLoop h false flags es

/-- `setFlags`: lines 57-84. It reads the first entry without looking at the count. -/
def setFlags (h : Tfhd) (r : Run) : Res Run :=
  match r.entries with
  | [] => .ub
  | e :: _ =>
    let flags := if r.dataOffset ≠ 0 then 1 else 0
    let flags := if e.flags ≠ h.sampleFlags then flags ||| 4 else flags
    .ok { r with firstFlags := e.flags, flags := flagLoop h true flags r.entries }

/-- `calculateSize`: lines 137-164. -/
def runSize (r : Run) : Nat :=
  w32(16 + (if has r.flags 1 then 4 else 0) + (if has r.flags 4 then 4 else 0) +
    ((if has r.flags 0x100 then 4 else 0) + (if has r.flags 0x200 then 4 else 0) +
      (if has r.flags 0x400 then 4 else 0) + (if has r.flags 0x800 then 4 else 0)) * r.entries.length)

/-- The fields of one sample: lines 112-127. -/
def putEntry (flags : Nat) (e : Entry) : W :=
  (if has flags 0x100 then put32 e.duration else W.skip) ;;
  (if has flags 0x200 then put32 e.size else W.skip) ;;
  (if has flags 0x400 then put32 e.flags else W.skip) ;;
  (if has flags 0x800 then put32 e.offset else W.skip)

/-- `serialize`: lines 86-135. -/
def runSer (r : Run) : W :=
  serFull (runSize r) typeTrun r.version r.flags ;; put32 r.entries.length ;;
  (if has r.flags 1 then put32 r.dataOffset else W.skip) ;;
  (if has r.flags 4 then put32 r.firstFlags else W.skip) ;;
  W.each (putEntry r.flags) r.entries ;; W.assertFull

/-- `bitcount`: lines 166-174, of a number below 2^16. -/
def bitcount (v : Nat) : Nat := ((List.range 16).filter fun i => v.testBit i).length

/-- A field that may be there. -/
def optional (present : Bool) (p : P Nat) : P Nat := if present then p else pure 0

/-- One sample: lines 216-241. The entries come from `calloc`. -/
def getEntry (flags : Nat) : P Entry := do
  let duration ← optional (has flags 0x100) get32
  let size ← optional (has flags 0x200) get32
  let sflags ← optional (has flags 0x400) get32
  let offset ← optional (has flags 0x800) get32
  let _ ← P.repeat (bitcount (flags &&& 0xFF00) - ((if has flags 0x100 then 1 else 0) +
    (if has flags 0x200 then 1 else 0) + (if has flags 0x400 then 1 else 0) +
    (if has flags 0x800 then 1 else 0))) get32
  pure ⟨duration, size, sflags, offset⟩

/-- `createFromInputStream`: lines 176-248. -/
def runParse (_ : Hdr) : P Run := do
  let vf ← getVersionFlags
  let n ← get32
  let dataOffset ← optional (has vf.2 1) get32
  let firstFlags ← optional (has vf.2 4) get32
  let _ ← P.repeat (bitcount (vf.2 &&& 0xFF) - ((if has vf.2 1 then 1 else 0) +
    (if has vf.2 4 then 1 else 0))) get32
  let entries ← P.repeat n (getEntry vf.2)
  pure ⟨vf.1, vf.2, dataOffset, firstFlags, entries⟩

/-! ## Track fragment header: TrackFragmentHeaderAtom.c -/

/-- `calculateSize`: lines 77-99. -/
def tfhdSize (h : Tfhd) : Nat :=
  w32(16 + (if has h.flags 1 then 8 else 0) + (if has h.flags 2 then 4 else 0) +
    (if has h.flags 8 then 4 else 0) + (if has h.flags 0x10 then 4 else 0) +
    (if has h.flags 0x20 then 4 else 0))

/-- `serialize`: lines 36-75. -/
def tfhdSer (h : Tfhd) : W :=
  serFull (tfhdSize h) typeTfhd h.version h.flags ;; put32 h.trackId ;;
  (if has h.flags 1 then put64 h.base else W.skip) ;;
  (if has h.flags 2 then put32 h.descIndex else W.skip) ;;
  (if has h.flags 8 then put32 h.duration else W.skip) ;;
  (if has h.flags 0x10 then put32 h.size else W.skip) ;;
  (if has h.flags 0x20 then put32 h.sampleFlags else W.skip) ;; W.assertFull

/-- `createFromInputStream`: lines 101-139. -/
def tfhdParse (_ : Hdr) : P Tfhd := do
  let vf ← getVersionFlags
  let trackId ← get32
  let base ← optional (has vf.2 1) get64
  let descIndex ← optional (has vf.2 2) get32
  let duration ← optional (has vf.2 8) get32
  let size ← optional (has vf.2 0x10) get32
  let sampleFlags ← optional (has vf.2 0x20) get32
  pure ⟨vf.1, vf.2, trackId, base, descIndex, duration, size, sampleFlags⟩

/-! ## Decode time: TrackFragmentDecodeTimeAtom.c -/

/-- `calculateSize`: lines 66-89. -/
def tfdtSize (t : Tfdt) : Res Nat :=
  if t.version = 1 then .ok 20 else if t.version = 0 then .ok 16 else .err .notImplemented

/-- `serialize`: lines 38-64. -/
def tfdtSer (size : Nat) (t : Tfdt) : W :=
  serFull size typeTfdt t.version t.flags ;;
  (if t.version = 1 then put64 t.time else if t.version = 0 then put32 t.time else W.fail .notImplemented) ;;
  W.assertFull

/-- `createFromInputStream`: lines 91-117. -/
def tfdtParse (h : Hdr) : P Tfdt := do
  let vf ← getVersionFlags
  let time ← if vf.1 = 1 then get64 else if vf.1 = 0 then get32 else P.fail .notImplemented
  let r ← P.bytesRead
  if r ≠ h.size then P.bad else pure ⟨vf.1, vf.2, time⟩

/-! ## Track fragment: TrackFragmentAtom.c -/

/-- The defaults of the header: lines 395-397 and 412-431. -/
def defaults (h : Tfhd) (runs : List Run) : Tfhd :=
  let h := runs.foldl (calculateDefaults 2) { h with duration := 0, size := 0, sampleFlags := 0 }
  if h.sampleFlags = 0 then runs.foldl (calculateDefaults 1) h else h

/-- The flags of the header: lines 398 and 434-441. -/
def tfhdFlags (x : Trex) (h : Tfhd) : Nat :=
  let flags := if x.descIndex ≠ h.descIndex then 1 ||| 2 else 1
  let flags := if x.duration ≠ h.duration then flags ||| 8 else flags
  let flags := if x.size ≠ h.size then flags ||| 0x10 else flags
  if x.sampleFlags ≠ h.sampleFlags then flags ||| 0x20 else flags

/-- `setFlags` of every run: lines 444-449. -/
def setAllFlags (h : Tfhd) : List Run → Res (List Run)
  | [] => .ok []
  | r :: rs => do
    let r ← setFlags h r
    let rs ← setAllFlags h rs
    pure (r :: rs)

/-- `calculateSize` as far as it changes the fragment: lines 382-450. -/
def prepare (t : Traf) : Res Traf :=
  let h := defaults t.tfhd t.runs
  if t.runs = [] then .ok { t with tfhd := h } else do
    let runs ← setAllFlags h t.runs
    pure { t with tfhd := { h with flags := tfhdFlags t.trex h }, runs := runs }

/-- The size computed by `calculateSize`: lines 452-463. -/
def size (t : Traf) : Res Nat :=
  if t.runs = [] then .ok 0 else do
    let n := w32(8 + tfhdSize t.tfhd)
    let n ← match t.tfdt with
      | none => Res.ok n
      | some d => do
        let k ← tfdtSize d
        pure w32(n + k)
    pure (t.runs.foldl (fun n r => w32(n + runSize r)) n)

/-- `serialize`: lines 355-380. -/
def ser (size : Nat) (t : Traf) : W :=
  if size = 0 then W.skip else
  serBase size typeTraf ;; nested (tfhdSize t.tfhd) (tfhdSer t.tfhd) ;;
  (match t.tfdt with
    | none => W.skip
    | some d => match tfdtSize d with
      | .ok k => nested k (tfdtSer k d)
      | _ => W.bad) ;;
  W.each (fun r => nested (runSize r) (runSer r)) t.runs ;; W.assertFull

/-- `calculateSize`, then `serialize` into a buffer of that size. -/
def write (t : Traf) : Res Bytes := do
  let t ← prepare t
  let n ← size t
  runW n (ser n t)

/-- A fragment as it is read: `tfhd` may be missing. -/
structure RTraf where
  tfhd : Option Tfhd
  tfdt : Option Tfdt
  runs : List Run
  deriving DecidableEq, Repr

inductive Member where
  | tfhd (h : Tfhd)
  | tfdt (t : Tfdt)
  | trun (r : Run)
  | other

/-- The class of a member: MP4Atoms.c 480-490. -/
def memberParse (h : Hdr) : P Member :=
  if h.type = typeTfhd then Member.tfhd <$> tfhdParse h
  else if h.type = typeTfdt then Member.tfdt <$> tfdtParse h
  else if h.type = typeTrun then Member.trun <$> runParse h
  else do
    let r ← P.bytesRead
    let _ ← getBytes w32(h.size + (4294967296 - r))
    pure .other

/-- `addAtom`: lines 51-86. -/
def addAtom (t : RTraf) : Member → RTraf
  | .tfhd h => { t with tfhd := some h }
  | .tfdt d => { t with tfdt := some d }
  | .trun r => { t with runs := t.runs ++ [r] }
  | .other => t

/-- The loop of `PARSE_ATOM_INCLUDES`: MP4Impl.h 605-621. -/
def members : Nat → Nat → RTraf → P RTraf
  | 0, _, _ => P.bad
  | n + 1, size, t => fun s =>
    if s.read < size then
      match parseAtom memberParse s.rest with
      | .ok (c, h, r) => members n size (addAtom t c) ⟨r, w32(s.read + h.size)⟩
      | .err e => .err e
      | .ub => .ub
    else .ok (t, s)

/-- `createFromInputStream`: lines 973-980. The number of passes of the loop is bounded by the number
of bytes that are left. -/
def parse (h : Hdr) : P RTraf := fun s =>
  (members (s.rest.length + 1) h.size ⟨none, none, []⟩ s).bind fun (t, s') =>
    if s'.read ≠ h.size then .err .badData else .ok (t, s')

/-! ## Applying the defaults -/

/-- The defaults for what the header does not have: `mergeFragments`, MovieFragmentAtom.c 118-131. -/
def fill (x : Trex) (moof prevEnd : Nat) (h : Tfhd) : Tfhd :=
  { h with
    descIndex := if has h.flags 2 then h.descIndex else x.descIndex
    duration := if has h.flags 8 then h.duration else x.duration
    size := if has h.flags 0x10 then h.size else x.size
    sampleFlags := if has h.flags 0x20 then h.sampleFlags else x.sampleFlags
    base := if has h.flags 1 then h.base else if has h.flags 0x20000 then moof else prevEnd }

/-- One sample of a run in `mergeRuns`: TrackFragmentAtom.c 553-562. -/
def resolve (h : Tfhd) (r : Run) (first : Bool) (e : Entry) : Entry :=
  { duration := if has r.flags 0x100 then e.duration else h.duration
    size := if has r.flags 0x200 then e.size else h.size
    offset := e.offset
    flags := if first ∧ has r.flags 4 then r.firstFlags
      else if has r.flags 0x400 then e.flags else h.sampleFlags }

/-- `tfhd->base_data_offset + trun->data_offset`, a `u64` and a `s32`: TrackFragmentAtom.c 580. -/
def place (h : Tfhd) (r : Run) : Nat := u64i (h.base + s32 r.dataOffset)

/-- One run in `mergeRuns`: TrackFragmentAtom.c 539-582: where its data is and its samples. With the flag
for the flags of the first sample, line 542 writes to the first entry. -/
def mergeRun (h : Tfhd) (r : Run) : Res (Nat × List Entry) :=
  match r.entries with
  | [] => if has r.flags 4 then .ub else .ok (place h r, [])
  | e :: es => .ok (place h r, resolve h r true e :: es.map (resolve h r false))

/-- All runs: TrackFragmentAtom.c 485-605. -/
def mergeRuns (h : Tfhd) : List Run → Res (List (Nat × List Entry))
  | [] => .ok []
  | r :: rs => do
    let x ← mergeRun h r
    let xs ← mergeRuns h rs
    pure (x :: xs)

/-- The samples of a fragment: MovieFragmentAtom.c 106-131 and 188. -/
def samples (x : Trex) (moof prevEnd : Nat) (t : RTraf) : Res (List (Nat × List Entry)) :=
  match t.tfhd with
  | none => .ub
  | some h => mergeRuns (fill x moof prevEnd h) t.runs

end Verif.Traf
