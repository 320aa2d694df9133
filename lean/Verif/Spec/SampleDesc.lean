import Verif.Model.SampleDesc
import Verif.Spec.Entries
import Verif.Props.C49

/-!
# Sample descriptions: what is in a handle
-/

namespace Verif.Sde

open Verif.Ent Verif.Descr

variable {α β : Type}

/-- The kinds of sample entries whose boxes the library sees, with the fields before the boxes. -/
inductive Kind (β : Type) where
  | plain
  | visual (f : Video)
  | audio (f : Audio)
  | encVisual (f : Video) (sinf : Option (Kid β))
  | encAudio (f : Audio) (sinf : Option (Kid β))
  | restricted (f : Video)
  | xml (encoding ns location : Bytes)
  | text (encoding format : Bytes)
  | mebx

/-- A sample entry as a value. -/
structure Sample (β : Type) where
  type : Nat
  reserved : Bytes
  dref : Nat
  kind : Kind β
  kids : List (Kid β)

/-- The bytes of the fields. -/
def Kind.fields : Kind β → Bytes
  | .plain | .mebx => []
  | .visual f | .encVisual f _ | .restricted f => f.wire
  | .audio f | .encAudio f _ => f.wire
  | .xml a b c => (a ++ [0]) ++ ((b ++ [0]) ++ (c ++ [0]))
  | .text a b => (a ++ [0]) ++ (b ++ [0])

/-- The bytes after the boxes: those of the protection. -/
def Kind.last : Kind β → Bytes
  | .encVisual _ s | .encAudio _ s => wire s.toList
  | _ => []

/-- The bytes of the entry. -/
def Sample.bytes (s : Sample β) : Bytes :=
  box s.type (headWire s.reserved s.dref ++ (s.kind.fields ++ (wire s.kids ++ s.kind.last)))

/-- The types of the entries of a kind. -/
def Kind.types : Kind β → List Nat
  | .plain => [fcc 'm' 'p' '4' 's']
  | .visual _ => visualTypes
  | .audio _ => audioTypes
  | .encVisual .. => [fcc 'e' 'n' 'c' 'v']
  | .encAudio .. => [fcc 'e' 'n' 'c' 'a']
  | .restricted _ => [fcc 'r' 'e' 's' 'v']
  | .xml .. => [fcc 'm' 'e' 't' 'x']
  | .text .. => [fcc 'm' 'e' 't' 't']
  | .mebx => [fcc 'm' 'e' 'b' 'x']

/-- The protection box is one, and is not among the others. -/
def Protected (K : Class β) (sinf : Option (Kid β)) (ks : List (Kid β)) : Prop :=
  Family K sinf.toList ∧ (∀ k ∈ ks, k.type ≠ fcc 's' 'i' 'n' 'f') ∧ ∀ k ∈ sinf, k.type = fcc 's' 'i' 'n' 'f'

/-- The fields are in range, strings have no NUL and not more than 1023 bytes. -/
def Kind.Fits (K : Class β) (ks : List (Kid β)) : Kind β → Prop
  | .plain => True
  | .visual f | .restricted f => f.Fits
  | .audio f => f.Fits
  | .encVisual f s => f.Fits ∧ Protected K s ks
  | .encAudio f s => f.Fits ∧ Protected K s ks
  | .xml a b c => Short 1023 (some a) ∧ Short 1023 (some b) ∧ Short 1023 (some c)
  | .text a b => Short 1023 (some a) ∧ Short 1023 (some b)
  | .mebx => (ks.filter fun k => k.type = fcc 'k' 'e' 'y' 's').length ≤ 1

/-- All parts can be written and read by themselves, and the whole is not too big. -/
structure Sample.Ok (K : Class β) (s : Sample β) : Prop where
  family : Family K s.kids
  head : HeadFits s.reserved s.dref
  fits : s.kind.Fits K s.kids
  good : GoodType s.type
  size : 4096 + s.bytes.length < 4294967296

/-- The type is one of the kind: the library finds the kind by the type. -/
def Sample.Typed (s : Sample β) : Prop := s.type ∈ s.kind.types

/-- The types whose kind the library knows. -/
def known : List Nat := visualTypes ++ audioTypes ++ otherTypes

/-- An entry of a type that it does not know: all after the head is data. -/
def rawBytes (type : Nat) (reserved : Bytes) (dref : Nat) (data : Bytes) : Bytes :=
  box type (headWire reserved dref ++ data)

/-- Such an entry. -/
structure RawOk (type : Nat) (reserved : Bytes) (dref : Nat) (data : Bytes) : Prop where
  head : HeadFits reserved dref
  good : GoodType type
  unknown : type ∉ known
  size : 16 + data.length < 4294967296

/-- The entry in memory. -/
def Sample.entry (s : Sample β) : Any β :=
  match s.kind with
  | .plain => .plain ⟨s.type, s.reserved, s.dref, (), vals s.kids⟩
  | .visual f => .visual ⟨s.type, s.reserved, s.dref, f, vals s.kids⟩
  | .audio f => .audio ⟨s.type, s.reserved, s.dref, (f, noQt), vals s.kids⟩
  | .encVisual f p => .encVisual ⟨s.type, s.reserved, s.dref, f, vals s.kids, p.map (·.val)⟩
  | .encAudio f p => .encAudio ⟨s.type, s.reserved, s.dref, f, vals s.kids, p.map (·.val)⟩
  | .restricted f => .restricted ⟨s.type, s.reserved, s.dref, f, vals s.kids⟩
  | .xml a b c => .xmlMeta ⟨s.type, s.reserved, s.dref, ⟨some (a ++ [0]), some (b ++ [0]), some (c ++ [0])⟩, vals s.kids⟩
  | .text a b => .textMeta ⟨s.type, s.reserved, s.dref, ⟨some (a ++ [0]), some (b ++ [0])⟩, vals s.kids⟩
  | .mebx => .mebx ⟨s.type, s.reserved, s.dref, s.kids.any fun k => k.type = fcc 'k' 'e' 'y' 's', vals s.kids⟩

/-! ## Boxes -/

/-- The box with an elementary stream descriptor. -/
def esdsKid (version flags : Nat) (e : Es) : Kid (Bx α) :=
  ⟨fcc 'e' 's' 'd' 's', .esds version flags (some e), fullBox (fcc 'e' 's' 'd' 's') version flags (esBytes e)⟩

/-- Such a box can be written and read. -/
structure EsdsOk (version flags : Nat) (e : Es) : Prop where
  version : version < 256
  flags : flags < 16777216
  es : EsOk e
  length : (esPayload e).length < 268435456

/-- The descriptor with one more inside, where the syntax has place for it: one decoder configuration, one SL configuration,
one of the tags 9 and 12, any number of the others. -/
def joined (e : Es) : Child → Option Es
  | .dec d => if e.decoder = none then some { e with decoder := some d } else none
  | .sl c => if e.sl = none then some { e with sl := some c } else none
  | .ptr p => some { e with ptrs := e.ptrs ++ [p] }
  | .plain d =>
    if d.tag = 9 then (if e.ipi = none then some { e with ipi := some d } else none)
    else if d.tag = 12 then (if e.qos = none then some { e with qos := some d } else none)
    else if d.tag = 0x43 then some { e with lang := e.lang ++ [d] }
    else if d.tag = 7 ∨ d.tag = 8 then some { e with ipiData := e.ipiData ++ [d] }
    else some { e with ext := e.ext ++ [d] }

/-- ISO/IEC 14496-12, 8.5.2.2 `BitRateBox`. -/
def btrtKid (buffer max avg : Nat) : Kid (Bx α) :=
  ⟨fcc 'b' 't' 'r' 't', .rate (fcc 'b' 't' 'r' 't') ⟨buffer, max, avg⟩,
    box (fcc 'b' 't' 'r' 't') (be 4 buffer ++ (be 4 max ++ be 4 avg))⟩

/-- 3GPP TS 26.244, `BitrateBox`: no buffer size. -/
def bitrKid (max avg : Nat) : Kid (Bx α) :=
  ⟨fcc 'b' 'i' 't' 'r', .rate (fcc 'b' 'i' 't' 'r') ⟨0, max, avg⟩, box (fcc 'b' 'i' 't' 'r') (be 4 avg ++ be 4 max)⟩

/-- 3GPP TS 26.244, `AMRSpecificBox`. -/
def damrKid (x : Rows.Damr) : Kid (Bx α) :=
  ⟨fcc 'd' 'a' 'm' 'r', .damr x, box (fcc 'd' 'a' 'm' 'r')
    (be 4 x.vendor ++ (be 1 x.decoder ++ (be 2 x.modeSet ++ (be 1 x.period ++ be 1 x.frames))))⟩

/-- 3GPP TS 26.244, `AMRWPSpecificBox`. -/
def dawpKid (vendor decoder : Nat) : Kid (Bx α) :=
  ⟨fcc 'd' 'a' 'w' 'p', .dawp vendor decoder, box (fcc 'd' 'a' 'w' 'p') (be 4 vendor ++ be 1 decoder)⟩

/-- 3GPP TS 26.244, `H263SpecificBox`. -/
def d263Kid (vendor version level profile : Nat) : Kid (Bx α) :=
  ⟨fcc 'd' '2' '6' '3', .d263 ⟨vendor, version, level, profile, []⟩,
    box (fcc 'd' '2' '6' '3') (be 4 vendor ++ (be 1 version ++ (be 1 level ++ be 1 profile)))⟩

/-! ## New entries -/

/-- ISO/IEC 14496-12, 12.1.3.2: 320 by 240, 72 dpi, one frame, no name, 24 bits of colour, -1. -/
def freshVideo : Video := ⟨List.replicate 16 0, 320, 240, 4718592, 4718592, 0, 1, 0, List.replicate 31 0, 24, 65535⟩

/-- ISO/IEC 14496-12, 12.2.3.2: two channels of 16 bits. -/
def freshAudio (rate : Nat) : Audio := ⟨List.replicate 8 0, 2, 16, 0, rate, 0⟩

/-- The elementary stream descriptor of a new description: the SL configuration of files. -/
def freshEs (objectType streamType buffer max avg : Nat) (info : Option Default) : Es :=
  ⟨0, 0, 0, [], 0, some ⟨objectType, streamType, false, buffer, max, avg, info⟩,
    some { Sl.zero with predefined := 2, timestamps := true }, none, none, [], [], [], []⟩

/-- The class of the media decides. -/
inductive Media
  | visual
  | audio (rate : Nat)
  | other

def Media.kind : Media → Kind β
  | .visual => .visual freshVideo
  | .audio r => .audio (freshAudio r)
  | .other => .plain

def Media.type : Media → Nat
  | .visual => fcc 'm' 'p' '4' 'v'
  | .audio _ => fcc 'm' 'p' '4' 'a'
  | .other => fcc 'm' 'p' '4' 's'

/-- The flags of a new track (MP4Movies.h 77-78): 2 for visual media, 4 for audio. -/
def Visual (t : Track) : Bool := t.flags.testBit 1

def Audible (t : Track) : Bool := t.flags.testBit 2

/-- The track is of such media: a time scale of more than 16 bits is no rate. -/
def Of (t : Track) : Media → Prop
  | .visual => Visual t = true
  | .audio r => Visual t = false ∧ Audible t = true ∧ ∃ s, t.timeScale = .ok s ∧ r = if s < 65536 then s else 0
  | .other => Visual t = false ∧ Audible t = false

end Verif.Sde
