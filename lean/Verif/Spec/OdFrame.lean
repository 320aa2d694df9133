import Verif.Spec.Od
import Verif.Model.OdFrame

/-!
# What an object descriptor stream shows (ISO/IEC 14496-14, 3.1.2)
-/

namespace Verif.Od

open Verif.Descr

/-- A frame of the stream: commands one after the other. -/
def frame (cs : List Cmd) : Bytes := cs.flatMap cmdBytes

/-- A pointer that names a stream. -/
def Named (p : Ptr) : Prop := p.es ≠ 0 ∧ p.es ≠ 0xFFFF

instance (p : Ptr) : Decidable (Named p) := inferInstanceAs (Decidable (_ ∧ _))

/-- The streams that an object descriptor speaks of: those its pointers name, then its own. -/
def odIds (d : Od) : List Nat := d.ptr.flatMap (fun p => if Named p then [p.es] else []) ++ d.es.map (·.esid)

def cmdIds : Cmd → List Nat
  | .odUpdate ods _ => ods.flatMap odIds
  | .esUpdate _ es _ _ => es.map (·.esid)
  | .plain _ => []

/-- The streams whose descriptors a command carries. -/
def esIds : Cmd → List Nat
  | .odUpdate ods _ => ods.flatMap fun d => d.es.map (·.esid)
  | .esUpdate _ es _ _ => es.map (·.esid)
  | .plain _ => []

/-- Carries stream descriptors, not references, and no pointers in stream descriptors name a
stream. -/
def Carries : Cmd → Prop
  | .odUpdate ods _ => ∀ d ∈ ods, d.ref = [] ∧ ∀ e ∈ d.es, ∀ p ∈ e.ptrs, ¬ Named p
  | .esUpdate _ es ref _ => ref = [] ∧ ∀ e ∈ es, ∀ p ∈ e.ptrs, ¬ Named p
  | .plain _ => True

/-- None of the streams is known yet, and all of them can be numbered. -/
structure Fresh (known new : List Nat) : Prop where
  nodup : new.Nodup
  unknown : ∀ i ∈ new, i ∉ known ∧ i ≠ 0
  few : known.length + new.length < 65535

/-- A command without stream descriptors. -/
def NoStreams : Cmd → Prop
  | .odUpdate ods _ => ∀ d ∈ ods, d.es = []
  | .esUpdate _ es _ _ => es = []
  | .plain _ => True

/-- The command with the description `f` of each stream in place of the descriptor given. -/
def shown (f : Nat → Es) : Cmd → Cmd
  | .odUpdate ods ext => .odUpdate (ods.map fun d => { d with tag := 0x01, es := d.es.map fun e => f e.esid })
      (ext.map readAny)
  | .esUpdate id es ref ext => .esUpdate id (es.map fun e => f e.esid) ref (ext.map readAny)
  | .plain d => .plain d

/-- The configuration of packets made from a file: random access flag, time stamps of 32 bits in the
time scale of the media, clock in that of the movie, packets numbered in five bits. -/
def packetSl (movie media : Nat) : Sl :=
  ⟨0, false, false, true, false, false, true, false, false, media, movie, 32, 0, 0, 0, 0, 0, 5, 0, 0, 0⟩

/-- A configuration given by the application, with the time scales. -/
def givenSl (c : Sl) (movie media : Nat) : Sl :=
  { c with
    tsResolution := media, ocrResolution := movie, timeScale := if c.durations then media else 0,
    auDuration := if c.durations then media else 0, cuDuration := if c.durations then media else 0 }

/-- How a track is described: by the descriptor of its sample description, with the track ID, the
first stream it depends on, the first for its clock, and the configuration of packets. -/
def described (v : Mov) (sl : Option Sl) (t : Trk) (file : Es) : Es :=
  { file with
    esid := t.id, dependsOn := t.depends.headD file.dependsOn, ocr := t.clock.headD file.ocr
    sl := some (match sl with | none => packetSl v.timescale t.timescale | some c => givenSl c v.timescale t.timescale) }

/-- `e` describes the stream `id`: its track is in the movie, its sample description has a descriptor
without pointers that name streams and, unless a configuration is given, with the one for files. -/
def Shows (v : Mov) (sl : Option Sl) (id : Nat) (e : Es) : Prop :=
  ∃ t file, v.tracks.find? (fun t => t.id = id) = some t ∧ t.esd = .ok file ∧ EsOk file ∧
    (esBytes file).length < 2 ^ 28 ∧ (sl = none → ∃ c, file.sl = some c ∧ c.predefined = 2) ∧ (∀ p ∈ file.ptrs, ¬ Named p) ∧
    e = described v sl t file

end Verif.Od
