import Verif.Model.Media
import Verif.Model.Saiz
import Verif.Model.Saio

/-!
# Sample auxiliary information of a media
MP4Media.c 2192-2475, SampleTableAtom.c 806-845, MediaInformationAtom.c 731-738, TrackFragmentAtom.c 677-717.

The media is that of Model/Media, with its simplifications.
-/

namespace Verif.AuxInfo

open Media (Media)

/-- A media with its lists `SampleAuxiliaryInformationSizes` and `SampleAuxiliaryInformationOffsets`. -/
structure S where
  media : Media
  saiz : List Saiz.Box
  saio : List Saio.Box

/-- What tells the kinds of information apart: `isUsingAuxInfoPropertiesFlag`, `aux_info_type`,
`aux_info_type_parameter`. -/
structure Key where
  flag : Nat
  type : Nat
  param : Nat
  deriving DecidableEq, Repr

/-- The index of the last element with the property. -/
def lastIdx {α : Type} (p : α → Bool) : List α → Nat → Option Nat → Option Nat
  | [], _, r => r
  | x :: l, i, r => lastIdx p l (i + 1) (if p x then some i else r)

def isZ (k : Key) (b : Saiz.Box) : Bool := b.flags &&& 1 == k.flag && b.auxType == k.type && b.auxParam == k.param
def isO (k : Key) (b : Saio.Box) : Bool := b.flags &&& 1 == k.flag && b.auxType == k.type && b.auxParam == k.param

/-- `getSampleAuxiliaryInformation`: SampleTableAtom.c 806-845. The loop takes as many of the offset boxes as there are
size boxes; for one that is missing it uses an uninitialised pointer. -/
def find (saiz : List Saiz.Box) (saio : List Saio.Box) (k : Key) : Res (Option Nat × Option Nat) :=
  if saio.length < saiz.length then .ub
  else .ok (lastIdx (isZ k) saiz 0 none, lastIdx (isO k) (saio.take saiz.length) 0 none)

/-- `MP4SetupSampleAuxiliaryInformation`: MP4Media.c 2192-2249. -/
def setup (s : S) (k : Key) (default : Nat) : Res S :=
  (find s.saiz s.saio k).bind fun f =>
  if f.1.isSome then .err .badParam
  else .ok { s with
    saiz := s.saiz ++ [⟨0, if k.flag ≠ 0 then 1 else 0, if k.flag ≠ 0 then k.type else 0,
      if k.flag ≠ 0 then k.param else 0, default, 0, []⟩]
    saio := s.saio ++ [⟨0, if k.flag ≠ 0 then 1 else 0, if k.flag ≠ 0 then k.type else 0,
      if k.flag ≠ 0 then k.param else 0, [], 0, 0⟩] }

/-- `MP4AddSampleAuxiliaryInformation`: MP4Media.c 2251-2335, for a media that is not a fragment. -/
def add (junk : Nat → UInt8) (s : S) (k : Key) (data : Bytes) (count : Nat) (sizes : List Nat) : Res S :=
  if count = 0 then .ok s else
  (find s.saiz s.saio k).bind fun f =>
  match f.1, f.2 with
  | some i, some j =>
    match s.saiz[i]?, s.saio[j]? with
    | some z, some o =>
      match s.media.stsd.getLast? with
      | none => .err .invalidMedia
      | some dref =>
        if dref = 0 ∨ dref > s.media.drefs then .err .badParam else
        (Mdat.addData junk s.media.mdat data).bind fun mdat =>
        (Saiz.addSizes z count sizes).bind fun z' =>
        (Saio.addOffsets { o with total := s.media.mdat.dataSize } count sizes).bind fun o' =>
        .ok { media := { s.media with mdat := mdat }, saiz := s.saiz.set i z', saio := s.saio.set j o' }
    | _, _ => .ub
  | _, _ => .err .badParam

/-- `MP4GetSampleAuxiliaryInformationForSample`: MP4Media.c 2397-2475. -/
def get (s : S) (k : Key) (n : Nat) : Res (Bytes × S) :=
  (find s.saiz s.saio k).bind fun f =>
  match f.1, f.2 with
  | some i, some j =>
    match s.saiz[i]?, s.saio[j]? with
    | some z, some o =>
      if z.count < n then .err .eof else
      (Stsc.lookup s.media.stsc n).bind fun r =>
      if r.1.desc = 0 ∨ r.1.desc > s.media.stsd.length then .err .badParam else
      match s.media.stsd[r.1.desc - 1]? with
      | none => .err .badParam
      | some dref =>
        if dref = 0 ∨ dref > s.media.drefs then .err .badParam else
        match (if z.default = 0 then z.sizes[pred32 n]? else some z.default), o.offsets[pred32 n]? with
        | some size, some offset =>
          (if size > 0 then Mdat.copyData s.media.mdat offset size else .ok []).bind fun bs =>
          .ok (bs, { s with media := { s.media with stsc := r.2 } })
        | _, _ => .ub
    | _, _ => .ub
  | _, _ => .err .badParam

/-- The loop of `mdatMoved`: MediaInformationAtom.c 731-738. -/
def mdatMoved (base stop : Nat) (delta : Int) : List Saio.Box → Res (List Saio.Box)
  | [] => .ok []
  | b :: l =>
    (Saio.mdatMoved b base stop delta).bind fun b' =>
    (mdatMoved base stop delta l).bind fun l' => .ok (b' :: l')

/-- `mergeSampleAuxiliaryInformation`: TrackFragmentAtom.c 677-717, with the boxes of the fragment. Functions are called
through a null pointer if the sample table has no boxes of the kind. -/
def merge (base : Nat) (s : S) : List (Saiz.Box × Saio.Box) → Res S
  | [] => .ok s
  | (z, o) :: l =>
    (find s.saiz s.saio ⟨z.flags &&& 1, z.auxType, z.auxParam⟩).bind fun f =>
    match f.1, f.2 with
    | some i, some j =>
      match s.saiz[i]?, s.saio[j]? with
      | some z0, some o0 =>
        (Saiz.mergeSizes z0 z).bind fun z' =>
        (Saio.mergeOffsets o0 o base).bind fun o' =>
        merge base { s with saiz := s.saiz.set i z', saio := s.saio.set j o' } l
      | _, _ => .ub
    | _, _ => .ub

end Verif.AuxInfo
