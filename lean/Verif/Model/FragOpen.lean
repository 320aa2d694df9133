import Verif.Model.FragFile
import Verif.Model.Merge

/-!
# Opening a file with movie fragments

The loop over the boxes of the file (MP4Movies.c `parseMovie`), and merging the fragments that were found
into the tracks of the movie (`MergeMovieFragments`, `mergeFragments`).

Simplifications: of the boxes, movie fragments and media data are looked into, any other is skipped over
(the movie box itself, before the fragments, is in Model/Movie); the edit list and the durations that are
computed afterwards are not part of the state.
-/

namespace Verif.FragFile

open Traf (Tfdt Trex RTraf)
open Merge (Table Junk Frag)

inductive Top where
  | moof (m : RMoof)
  | mdat (d : Mdat.T)
  | other

/-- The class of a box in the file that begins at `pos`: MP4Atoms.c 163-740. -/
def topParse (pos : Nat) (h : Hdr) : P Top :=
  if h.type = typeMoof then Top.moof <$> parse h
  else if h.type = Mdat.typeMdat then Top.mdat <$> Mdat.parseBody pos h
  else do
    let r ← P.bytesRead
    let _ ← getBytes w32(h.size + (4294967296 - r))
    pure .other

/-- The loop of `parseMovie` from `pos` on: MP4Movies.c 114-204. The fragments are kept with their place
in the file (`streamOffset`). Every box takes up some bytes, so `n` above the length of the file is
enough. -/
def scan (file : Bytes) : Nat → Nat → Res (List (Nat × RMoof))
  | 0, _ => .err .internalErr
  | n + 1, pos =>
    if file.length ≤ pos then .ok [] else
    match parseAtom (topParse pos) (file.drop pos) with
    | .ok (t, _, r) => (scan file n (file.length - r.length)).bind fun ms =>
      match t with
      | .moof m => .ok ((pos, m) :: ms)
      | _ => .ok ms
    | .err .eof => .ok []
    | .err e => .err e
    | .ub => .ub

/-- The sample tables of the tracks, by track ID. -/
abbrev Tables := Nat → Option Table

def Tables.set (s : Tables) (id : Nat) (m : Table) : Tables := fun k => if k = id then some m else s k

/-- The loop of `mergeFragments`: MovieFragmentAtom.c 89-205. `junk` is what memory holds, for each fragment box,
track fragment and run. A track that does not exist leaves a pointer that was not set. -/
def mergeTrafs (trex : Nat → Option Trex) (junk : Nat → Nat → Nat → Junk) (moof : Nat) :
    List (Option RTraf) → Nat → Tables → Res Tables
  | [], _, s => .ok s
  | none :: _, _, _ => .ub
  | some t :: ts, base, s =>
    match t.tfhd with
    | none => .ub
    | some h =>
      if h.trackId = 0 then .err .badParam else
      match trex h.trackId with
      | none => .ub
      | some x =>
        match s h.trackId with
        | none => .ub
        | some m =>
          (Merge.mergeFragment ⟨Traf.fill x moof base h, t.tfdt.map Tfdt.time,
              t.runs.mapIdx fun k r => (junk moof ts.length k, r)⟩ m).bind fun r =>
          match r.2 with
          | some e => .err e
          | none => mergeTrafs trex junk moof ts (dataEnd (Traf.fill x moof base h) t.runs) (s.set h.trackId r.1)

/-- A fragment for `MergeMovieFragments`. -/
def toMerge (x : Nat × RMoof) : FragSeq.Fragment (Nat × List (Option RTraf)) :=
  ⟨x.2.mfhd.map FragSeq.Mfhd.seq, (x.1, x.2.trafs)⟩

/-- `parseMovie` from `pos` on and `MergeMovieFragments`: MP4Movies.c 114-208 and 238-277, into the tables
`s` of the movie that was read before. -/
def openFrom (trex : Nat → Option Trex) (junk : Nat → Nat → Nat → Junk) (file : Bytes) (pos : Nat)
    (s : Tables) : Res Tables :=
  (scan file (file.length + 1) pos).bind fun ms =>
  FragSeq.merge (fun x s => mergeTrafs trex junk x.1 x.2 x.1 s) (ms.map toMerge) s

end Verif.FragFile
