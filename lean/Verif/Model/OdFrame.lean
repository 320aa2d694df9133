import Verif.Model.Od
import Verif.Model.Tref

/-!
# Frames of object descriptor streams
MediaAtom.c `MP4ParseODFrame`, `storeIPMPDescriptorPointers` (when a sample is added),
MP4SLPacket.c `rewriteODFrame`, `rewriteIPMPDescriptorPointers` (when it is read),
MP4Movies.c `makeESD`

In a file, the stream descriptors in an object descriptor are replaced by numbers: positions in the
track reference `mpod` of the object descriptor track, counted from one.

Simplifications: the reference is there already, perhaps empty (MediaAtom.c 632-662 create it, and an
empty track group); the size of a frame is below 2^32; lists and handles do not fail.
-/

namespace Verif.Od

open Verif.Descr
open Verif.Tref (Ref addTrackID)

/-- Each in turn, up to the first that fails. -/
def eachRes {α β : Type} (f : α → Res β) : List α → Res (List β)
  | [] => .ok []
  | a :: l => (f a).bind fun b => (eachRes f l).bind fun bs => .ok (b :: bs)

/-! ## Adding -/

/-- A step that changes the reference, also when it fails. -/
def St (α : Type) : Type := Ref → Ref × Res α

namespace St

def pure {α : Type} (a : α) : St α := fun m => (m, .ok a)

def fail {α : Type} (e : Err) : St α := fun m => (m, .err e)

def bind {α β : Type} (p : St α) (f : α → St β) : St β := fun m =>
  match p m with
  | (m, .ok a) => f a m
  | (m, .err e) => (m, .err e)
  | (m, .ub) => (m, .ub)

instance : Monad St where
  pure := St.pure
  bind := St.bind

/-- `mpod->addTrackID`. -/
def add (id : Nat) : St Unit := fun m =>
  match addTrackID m id with
  | .ok m' => (m', .ok ())
  | .err e => (m, .err e)
  | .ub => (m, .ub)

/-- `mpod->trackIDCount`. -/
def count : St Nat := fun m => (m, .ok m.ids.length)

def each {α β : Type} (f : α → St β) : List α → St (List β)
  | [] => St.pure []
  | a :: l => St.bind (f a) fun b => St.bind (each f l) fun bs => St.pure (b :: bs)

end St

/-- `storeIPMPDescriptorPointers`, one pointer: MediaAtom.c 877-891. -/
def storePtr (p : Ptr) : St Ptr :=
  if p.es ≠ 0 ∧ p.es ≠ 0xFFFF then do
    St.add p.es
    let n ← St.count
    pure { p with es := w16(n) }
  else pure p

/-- One stream descriptor gives the number for a reference: MediaAtom.c 710-727, 766-782. Its
pointers are changed before it is deleted. -/
def storeEs (e : Es) : St Nat := do
  St.add e.esid
  let _ ← St.each storePtr e.ptrs
  St.count

/-- One object descriptor: MediaAtom.c 686-749. A parsed one has the tag 0x01. -/
def storeOd (d : Od) : St Od := do
  let ptr ← St.each storePtr d.ptr
  let refs ← St.each storeEs d.es
  pure { d with tag := 0x11, ptr := ptr, ref := d.ref ++ refs, es := [] }

/-- One command: MediaAtom.c 673-807. -/
def storeCmd : Cmd → St Cmd
  | .odUpdate ods ext => do
    let ods ← St.each storeOd ods
    pure (.odUpdate ods ext)
  | .esUpdate id es ref ext => do
    let refs ← St.each storeEs es
    pure (.esUpdate id [] (ref ++ refs) ext)
  | .plain d => pure (.plain d)

/-- `while(is->available > 0)`: MediaAtom.c 664-813. Every command has at least two bytes, so the
number of bytes bounds the number of rounds. -/
def storeLoop : Nat → Bytes → St (List Cmd)
  | 0, _ => fun m => (m, .ub)
  | fuel + 1, bs => fun m =>
    if bs = [] then (m, .ok [])
    else match parseCommand ⟨bs, 0⟩ with
      | .err e => (m, .err e)
      | .ub => (m, .ub)
      | .ok (c, s) => (St.bind (storeCmd c) fun c => St.bind (storeLoop fuel s.rest) fun cs => St.pure (c :: cs)) m

/-- Each command written with its size. -/
def writeCmds (cs : List Cmd) : Res Bytes :=
  (eachRes (fun c => runW (cmdSize c) (putCmd c)) cs).bind fun l => .ok l.flatten

/-- `MP4ParseODFrame`: MediaAtom.c 591-852; the frame that is stored. An error is overwritten by the
result of deleting the list, and the frame is then stored as it was given. -/
def storeFrame (frame : Bytes) : St Bytes := fun m =>
  match storeLoop (frame.length + 1) frame m with
  | (m, .ub) => (m, .ub)
  | (m, .err _) => (m, .ok frame)
  | (m, .ok cs) =>
    match writeCmds cs with
    | .ub => (m, .ub)
    | .err _ => (m, .ok frame)
    | .ok bs => (m, .ok bs)

/-- `addSamples` for an object descriptor track: MediaAtom.c 260-297. -/
def addSamples (count : Nat) (frame : Bytes) : St (Option Bytes) :=
  if count = 0 then pure none
  else if count ≠ 1 then St.fail .notImplemented
  else do let bs ← storeFrame frame; pure (some bs)

/-! ## Reading -/

/-- A track, as far as `makeESD` looks: what `MP4GetMediaSampleDescIndex` and `MP4GetMediaESD` find
for the time, the track IDs of the references for dependence and for the clock, and the time scale. -/
structure Trk where
  id : Nat
  esd : Res Es
  depends : List Nat
  clock : List Nat
  timescale : Nat

/-- The movie. -/
structure Mov where
  timescale : Nat
  tracks : List Trk

/-- The configuration in place of the one predefined for files: MP4Movies.c 561-583. -/
def slForFile (movie media : Nat) : Sl :=
  { Sl.zero with
    randomAccess := true, timestamps := true, tsResolution := media, ocrResolution := movie, tsLength := 32,
    packetSeqLength := 5, timeScale := media, auDuration := media, cuDuration := media }

/-- `makeESD`: MP4Movies.c 484-602. A copy that was not made is used; an explicit configuration is
deleted and kept (lines 588-592). -/
def makeESD (v : Mov) (sl : Option Sl) (id : Nat) : Res Es :=
  match v.tracks.find? fun t => t.id = id with
  | none => .err .badParam
  | some t =>
    match t.esd with
    | .err e => .err e
    | .ub => .ub
    | .ok file =>
      match copy (.item (.es file)) with
      | .ok (some (.item (.es e))) =>
        let e := { e with
          esid := id
          dependsOn := (match t.depends with | [] => e.dependsOn | x :: _ => x)
          ocr := (match t.clock with | [] => e.ocr | x :: _ => x) }
        match sl with
        | some c => .ok { e with sl := some { c with
            tsResolution := t.timescale, ocrResolution := v.timescale, timeScale := t.timescale,
            auDuration := t.timescale, cuDuration := t.timescale } }
        | none =>
          match e.sl with
          | none => .err .invalidMedia
          | some c => if c.predefined = 2 then .ok { e with sl := some (slForFile v.timescale t.timescale) } else .ub
      | .err e => .err e
      | _ => .ub

/-- `rewriteIPMPDescriptorPointers`, one pointer: MP4SLPacket.c 357-365. -/
def rewritePtr (ids : List Nat) (p : Ptr) : Res Ptr :=
  if p.es ≠ 0 ∧ p.es ≠ 0xFFFF then
    match ids[p.es - 1]? with
    | some id => .ok { p with es := w16(id) }
    | none => .ub
  else .ok p

/-- One reference: MP4SLPacket.c 96-111, 138-153. -/
def rewriteRef (v : Mov) (sl : Option Sl) (ids : List Nat) (i : Nat) : Res Es :=
  if i > ids.length then .err .invalidMedia
  else if i = 0 then .ub
  else match ids[i - 1]? with
    | none => .ub
    | some id =>
      (makeESD v sl id).bind fun e =>
      (eachRes (rewritePtr ids) e.ptrs).bind fun ptrs => .ok { e with ptrs := ptrs }

/-- One object descriptor: MP4SLPacket.c 81-130. -/
def rewriteOd (v : Mov) (sl : Option Sl) (ids : List Nat) (d : Od) : Res Od :=
  (eachRes (rewritePtr ids) d.ptr).bind fun ptr =>
  (eachRes (rewriteRef v sl ids) d.ref).bind fun es =>
  .ok { d with ptr := ptr, es := d.es ++ es, ref := [] }

/-- One command: MP4SLPacket.c 72-177. -/
def rewriteCmd (v : Mov) (sl : Option Sl) (ids : List Nat) : Cmd → Res Cmd
  | .odUpdate ods ext => (eachRes (rewriteOd v sl ids) ods).bind fun ods => .ok (.odUpdate ods ext)
  | .esUpdate id es ref ext => (eachRes (rewriteRef v sl ids) ref).bind fun l => .ok (.esUpdate id (es ++ l) [] ext)
  | .plain d => .ok (.plain d)

/-- `while(is->available > 0)`: MP4SLPacket.c 65-183. -/
def rewriteLoop (v : Mov) (sl : Option Sl) (ids : List Nat) : Nat → Bytes → Res (List Cmd)
  | 0, _ => .ub
  | fuel + 1, bs =>
    if bs = [] then .ok []
    else match parseCommand ⟨bs, 0⟩ with
      | .err e => .err e
      | .ub => .ub
      | .ok (c, s) =>
        (rewriteCmd v sl ids c).bind fun c => (rewriteLoop v sl ids fuel s.rest).bind fun cs => .ok (c :: cs)

/-- `rewriteODFrame`: MP4SLPacket.c 39-225. -/
def rewriteFrame (v : Mov) (sl : Option Sl) (ids : List Nat) (frame : Bytes) : Res Bytes :=
  (rewriteLoop v sl ids (frame.length + 1) frame).bind writeCmds

end Verif.Od
