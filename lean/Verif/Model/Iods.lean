import Verif.Model.OdFrame

/-!
# The initial object descriptor of a movie
MP4Movies.c: `MP4NewMovieExt`, `MP4Get/SetMovieIODInlineProfileFlag`, `MP4GetMovieProfilesAndLevels`,
`MP4GetMovieInitialObjectDescriptorUsingSLConfig`, `MP4GetMovieObjectDescriptorUsingSLConfig`,
`MP4MovieAddTrackES_IDToIOD`, `MP4AddDescToMovieIOD`, `MP4MovieCreateDescriptors`

The classes of object descriptors and initial object descriptors start with the same fields, and the
functions tell them apart by the tag; a field that the class does not have is undefined.

Simplifications: the box has a descriptor, of a size that is not zero (both its setter and its reader see to it, for
sizes below 2^32); the duration of the movie is not computed (C28); handles and lists do not fail.
-/

namespace Verif.Od

open Verif.Descr

/-- The `iods` box: its descriptor, and whether the list of track IDs in it is `NULL`. -/
structure Iods where
  desc : Any
  cut : Bool
  deriving DecidableEq, Repr

/-- The tag of a descriptor; used for the two classes of object descriptors. -/
def Any.tagOf : Any → Nat
  | .od d => d.tag
  | .iod d => d.tag
  | .item _ => 0

/-- `MP4NewMovieExt`, the box: MP4Movies.c 1347-1398. The block for a URL is too small by the zero
that `strcpy` writes. -/
def newMovie (id : Nat) (p : Profiles) (url : Bytes) (exchange : Bool) : Res (Option Iods) :=
  if id = 0 then .ok none
  else if url ≠ [] then .ub
  else if exchange then .ok (some ⟨.od ⟨0x11, id, [], [], [], [], [], [], []⟩, false⟩)
  else .ok (some ⟨.iod ⟨0x10, id, 0, [], p, [], [], [], [], []⟩, false⟩)

/-- `MP4GetMovieIODInlineProfileFlag`: MP4Movies.c 604-630; `none` is `MP4HasRootOD`. -/
def getInline : Option Iods → Res (Option Nat)
  | none => .ub
  | some s =>
    if s.desc.tagOf = 0x11 then .ok none
    else match s.desc with
      | .iod d => .ok (some (if d.inline ≠ 0 then 1 else 0))
      | _ => .ub

/-- `MP4SetMovieIODInlineProfileFlag`: MP4Movies.c 632-654. -/
def setInline (flag : Nat) : Option Iods → Res (Option Iods)
  | none => .ub
  | some s =>
    if s.desc.tagOf = 0x11 ∨ s.desc.tagOf = 0x01 then .ok none
    else match s.desc with
      | .iod d => .ok (some { s with desc := .iod { d with inline := if flag ≠ 0 then 1 else 0 } })
      | _ => .ub

/-- `MP4GetMovieProfilesAndLevels`: MP4Movies.c 656-698. -/
def movieProfiles : Option Iods → Res (Option Profiles)
  | none => .ub
  | some s =>
    if s.desc.tagOf = 0x11 ∨ s.desc.tagOf = 0x01 then .ok none
    else match s.desc with
      | .iod d => .ok (some ⟨w8(d.profiles.od), w8(d.profiles.scene), w8(d.profiles.audio), w8(d.profiles.visual),
          w8(d.profiles.graphics)⟩)
      | _ => .ub

/-- `addDescriptor` of either class. -/
def anyAdd : Any → Item → Any
  | .od d, i => .od (odAdd d i)
  | .iod d, i => .iod (iodAdd d i)
  | .item x, _ => .item x

/-- The list of track IDs. -/
def Any.incs : Any → List Nat
  | .od d => d.inc
  | .iod d => d.inc
  | .item _ => []

/-- The descriptor with another tag, and without the list of track IDs. -/
def Any.uncover : Any → Nat → Any
  | .od d, t => .od { d with tag := t, inc := [] }
  | .iod d, t => .iod { d with tag := t, inc := [] }
  | .item x, _ => .item x

/-- `removeESDS`, and tag and list put back. -/
def Any.restore : Any → Nat → List Nat → Any
  | .od d, t, inc => .od { d with tag := t, inc := inc, es := [] }
  | .iod d, t, inc => .iod { d with tag := t, inc := inc, es := [] }
  | .item x, _, _ => .item x

/-- A stream descriptor for each track: MP4Movies.c 737-750, 1456-1469. What was added stays. -/
def addStreams (v : Mov) (sl : Option Sl) : List Nat → Any → Any × Res Unit
  | [], d => (d, .ok ())
  | id :: ids, d =>
    match makeESD v sl id with
    | .ok e => addStreams v sl ids (anyAdd d (.es e))
    | .err e => (d, .err e)
    | .ub => (d, .ub)

/-- The descriptor written with the streams in place of the track IDs: MP4Movies.c 731-766, 1449-1484.
`given` is the tag for the application, `kept` that of the file. -/
def uncovered (v : Mov) (sl : Option Sl) (given kept : Nat) (s : Iods) : Iods × Res Bytes :=
  if s.cut then (s, .err .badParam)
  else match addStreams v sl s.desc.incs s.desc with
    | (d, .err e) => (⟨d, false⟩, .err e)
    | (d, .ub) => (⟨d, false⟩, .ub)
    | (d, .ok ()) =>
      match runW (anySize (d.uncover given)) (putAny (d.uncover given)) with
      | .err e => (⟨d.uncover given, true⟩, .err e)
      | .ub => (⟨d.uncover given, true⟩, .ub)
      | .ok bs => (⟨d.restore kept d.incs, false⟩, .ok bs)

/-- `MP4GetMovieInitialObjectDescriptorUsingSLConfig`: MP4Movies.c 706-775, with
`MP4GetMovieObjectDescriptorUsingSLConfig`: MP4Movies.c 1429-1489. -/
def movieDescriptor (v : Mov) (sl : Option Sl) : Option Iods → Option Iods × Res Bytes
  | none => (none, .err .badData)
  | some s =>
    if s.desc.tagOf = 0x11 then
      match s.desc with
      | .od d =>
        if d.ref ≠ [] then (some s, .err .badData)
        else let (s', r) := uncovered v sl 0x01 0x11 s; (some s', r)
      | _ => (some s, .ub)
    else match s.desc with
      | .item _ => (some s, .ub)
      | _ => let (s', r) := uncovered v sl 0x02 0x10 s; (some s', r)

/-- `MP4AddTrackToMovieIOD`, `MP4MovieAddTrackES_IDToIOD`: MovieTracks.c 387-400, MP4Movies.c 1204-1227. -/
def addTrack (id : Nat) : Option Iods → Res (Option Iods)
  | none => .err .invalidMedia
  | some s =>
    match s.desc with
    | .item _ => .ub
    | d => if s.cut then .err .invalidMedia else .ok (some { s with desc := anyAdd d (.inc id) })

/-- The tags that are refused: MP4Movies.c 1520-1536. -/
def refused : List Nat := [0, 1, 2, 3, 4, 5, 6, 0x0B, 0x0C, 0x0E, 0x0F, 0x10, 0x11]

/-- The tag of a parsed descriptor. -/
def itemTag : Item → Nat
  | .es _ => 3
  | .inc _ => 0x0E
  | .ref _ => 0x0F
  | .child (.dec _) => 4
  | .child (.sl _) => 6
  | .child (.ptr _) => 0x0A
  | .child (.plain x) => x.tag

/-- `MP4AddDescToMovieIOD`: MP4Movies.c 1492-1553. -/
def addDesc (bs : Bytes) : Option Iods → Res (Option Iods)
  | none => match getDesc getAny ⟨bs, 0⟩ with
    | .err e => .err e
    | .ub => .ub
    | .ok (.item i, _) => if itemTag i ∈ refused then .err .badParam else .ub
    | .ok _ => .err .badParam
  | some s => match getDesc getAny ⟨bs, 0⟩ with
    | .err e => .err e
    | .ub => .ub
    | .ok (.item i, _) =>
      if itemTag i ∈ refused then .err .badParam
      else if s.desc.tagOf = 0x10 ∨ s.desc.tagOf = 0x11 then .ok (some { s with desc := anyAdd s.desc i })
      else .err .invalidMedia
    | .ok _ => .err .badParam

/-- `MP4MovieCreateDescriptors`, before a movie is written: MP4Movies.c 1160-1178. -/
def createDescriptors : Option Iods → Res Unit
  | none => .ok ()
  | some s => if s.desc.tagOf ≠ 0x10 ∧ s.desc.tagOf ≠ 0x11 then .err .invalidMedia else .ok ()

end Verif.Od
