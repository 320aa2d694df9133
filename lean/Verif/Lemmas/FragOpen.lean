import Verif.Spec.FragOpen
import Verif.Props.C54
import Verif.Props.C56

/-! # Lemmas for C58 -/

namespace Verif.FragFile

open Traf (Entry Run Tfhd Tfdt Trex RTraf has head ready back Fits)
open Merge (Table Junk Frag Piece Rep mergeFragment)

/-! ## The boxes of the file -/

theorem parseAtom_map {α β : Type} {body : Hdr → P α} {body' : Hdr → P β} {f : α → β} {inp r : Bytes} {a : α} {h : Hdr}
    (hp : parseAtom body inp = .ok (a, h, r)) (hb : body' h = f <$> body h) : parseAtom body' inp = .ok (f a, h, r) := by
  unfold parseAtom at hp ⊢
  cases hh : parseHeader inp with
  | ub => rw [hh] at hp; cases hp
  | err e => rw [hh] at hp; cases hp
  | ok x =>
    obtain ⟨h', r'⟩ := x
    rw [hh] at hp
    dsimp only at hp ⊢
    cases hc : body h' ⟨r', h'.hlen⟩ with
    | ub => rw [hc] at hp; cases hp
    | err e => rw [hc] at hp; cases hp
    | ok y =>
      obtain ⟨b, s⟩ := y
      rw [hc] at hp
      simp only [Res.ok.injEq, Prod.mk.injEq] at hp
      obtain ⟨rfl, rfl, rfl⟩ := hp
      rw [hb, Traf.mapAt f hc]

theorem toRead {n : Nat} (t : Nat) (h : 8 + n < 4294967296) (h0 : 0 < n) :
    Mdat.bytesToRead ⟨8 + n, t, [], 0, 8⟩ 8 = n := by
  unfold Mdat.bytesToRead
  dsimp only
  rw [if_neg (by omega)]
  omega

theorem shift_zero {n : Nat} (h : n < 2 ^ 31) : n >>> 31 = 0 := by
  rw [Nat.shiftRight_eq_div_pow]
  exact Nat.div_eq_of_lt h

theorem parses_mdat {D : Bytes} (h0 : 0 < D.length) (h : D.length < 2 ^ 31) (pos n : Nat) (hn : n = 8 + D.length) :
    ∃ v, ParsesAt (topParse pos ⟨n, Mdat.typeMdat, [], 0, 8⟩) 8 D (.mdat v) := by
  have e : topParse pos ⟨n, Mdat.typeMdat, [], 0, 8⟩ = Top.mdat <$> Mdat.parseBody pos ⟨n, Mdat.typeMdat, [], 0, 8⟩ := by
    unfold topParse
    dsimp only
    rw [if_neg (by decide), if_pos rfl]
  subst hn
  refine ⟨⟨some D, D.length, D.length, pos + 8⟩, fun r => ?_⟩
  rw [e]
  refine Traf.mapAt _ ?_
  unfold Mdat.parseBody
  dsimp only
  rw [toRead Mdat.typeMdat (by omega) h0, shift_zero h, if_neg (by omega), if_pos h0, P.bind_apply,
    parses_getBytes rfl]
  rfl

theorem top_mdat {D : Bytes} (h0 : D ≠ []) (h : D.length < 2 ^ 31) (pos : Nat) (rest : Bytes) :
    ∃ v hd, parseAtom (topParse pos) (mdatBox D ++ rest) = .ok (.mdat v, hd, rest) := by
  have hp := List.length_pos_iff.mpr h0
  generalize hn : 8 + D.length = n
  obtain ⟨v, hv⟩ := parses_mdat hp h pos n hn.symm
  refine ⟨v, ⟨n, Mdat.typeMdat, [], 0, 8⟩, ?_⟩
  unfold mdatBox box
  rw [if_neg h0, hn]
  exact parseAtom_small hv hn.symm (by omega) (by decide) (by decide) rest

/-- The fragment boxes of the file with their places. -/
def moofsOf : Nat → Nat → List Track → List (List Op) → List (Nat × RMoof)
  | _, _, _, [] => []
  | pre, seq, ts, f :: fs =>
    (pre, moofBack seq (pre + (fragMoof pre seq ts f).length + 8) (ts.mapIdx (trafOf f))) ::
      moofsOf (pre + (fragMoof pre seq ts f).length + (mdatBox (dataOf f)).length) (seq + 1) (advance ts f) fs

theorem fragMoof_eq {trex : Nat → Option Trex} {pre seq : Nat} {ts : List Track} {ops : List Op}
    (h : One trex pre seq ts ops) : fragMoof pre seq ts ops =
      box typeMoof (moofPayload seq (pre + (fragMoof pre seq ts ops).length + 8) (ts.mapIdx (trafOf ops))) := by
  conv => lhs; unfold fragMoof
  rw [(moof_length h).1]

theorem top_moof {trex : Nat → Option Trex} {pre seq : Nat} {ts : List Track} {ops : List Op}
    (h : One trex pre seq ts ops) (rest : Bytes) :
    ∃ hd, parseAtom (topParse pre) (fragMoof pre seq ts ops ++ rest) =
      .ok (.moof (moofBack seq (pre + (fragMoof pre seq ts ops).length + 8) (ts.mapIdx (trafOf ops))), hd, rest) := by
  have hok := trafs_ok h.frag h.ids
  obtain ⟨h1, h2⟩ := moof_length h
  have hroom := h.room
  have hM := fragMoof_eq h
  have hb : pre + (fragMoof pre seq ts ops).length + 8 < 2 ^ 64 := by omega
  generalize pre + (fragMoof pre seq ts ops).length + 8 = b at hM hb
  have hl : 8 + (moofPayload seq b (ts.mapIdx (trafOf ops))).length = (fragMoof pre seq ts ops).length := by
    rw [hM]; simp only [box, List.length_append, be_length]
  have hp := parse_moof hok (b := b) h.seq hb (by omega) rest
  rw [hM]
  exact ⟨_, parseAtom_map hp rfl⟩

theorem scan_step {file : Bytes} {n pos : Nat} {t : Top} {hd : Hdr} {r : Bytes} (hpos : pos < file.length)
    (h : parseAtom (topParse pos) (file.drop pos) = .ok (t, hd, r)) :
    scan file (n + 1) pos = (scan file n (file.length - r.length)).bind fun ms =>
      match t with
      | .moof m => .ok ((pos, m) :: ms)
      | _ => .ok ms := by
  rw [scan, if_neg (by omega), h]
  cases t <;> rfl

theorem scan_eq (trex : Nat → Option Trex) : ∀ (fs : List (List Op)) (pre : Bytes) (seq : Nat) (ts : List Track) (n : Nat),
    InRange trex pre seq ts fs → 2 * fs.length < n →
    scan (pre ++ laidOut pre.length seq ts fs) n pre.length = .ok (moofsOf pre.length seq ts fs) := by
  intro fs
  induction fs with
  | nil =>
    intro pre seq ts n _ hn
    obtain ⟨n, rfl⟩ : ∃ k, n = k + 1 := ⟨n - 1, by simp at hn; omega⟩
    rw [scan, if_pos (by simp [laidOut])]
    rfl
  | cons f fs ih =>
    intro pre seq ts n h hn
    rw [List.length_cons] at hn
    have one := h.one
    obtain ⟨h1, h2⟩ := moof_length one
    have hroom := one.room
    have key : ∀ k, 2 * fs.length < k → scan (pre ++ laidOut pre.length seq ts (f :: fs)) k
        (pre.length + (fragMoof pre.length seq ts f).length + (mdatBox (dataOf f)).length) =
        .ok (moofsOf (pre.length + (fragMoof pre.length seq ts f).length + (mdatBox (dataOf f)).length) (seq + 1)
          (advance ts f) fs) := by
      intro k hk
      have := ih _ _ _ k h.next hk
      rw [next_length] at this
      rw [laidOut, ← this]
      simp only [List.append_assoc]
    obtain ⟨n, rfl⟩ : ∃ k, n = k + 1 := ⟨n - 1, by omega⟩
    have hfile : pre ++ laidOut pre.length seq ts (f :: fs) = pre ++ (fragMoof pre.length seq ts f ++ (mdatBox (dataOf f) ++
        laidOut (pre.length + (fragMoof pre.length seq ts f).length + (mdatBox (dataOf f)).length) (seq + 1)
          (advance ts f) fs)) := by rw [laidOut]
    generalize hR : laidOut (pre.length + (fragMoof pre.length seq ts f).length + (mdatBox (dataOf f)).length) (seq + 1)
          (advance ts f) fs = R at hfile
    generalize pre ++ laidOut pre.length seq ts (f :: fs) = file at hfile key
    obtain ⟨hd, hp⟩ := top_moof one (mdatBox (dataOf f) ++ R)
    have hlen : file.length = pre.length + (fragMoof pre.length seq ts f).length + (mdatBox (dataOf f)).length + R.length := by
      rw [hfile]; simp only [List.length_append]; omega
    rw [scan_step (by omega) (by rw [hfile, List.drop_left]; exact hp)]
    dsimp only
    rw [moofsOf]
    have hpos : file.length - (mdatBox (dataOf f) ++ R).length = pre.length + (fragMoof pre.length seq ts f).length := by
      rw [hlen, List.length_append]; omega
    rw [hpos]
    suffices hs : scan file n (pre.length + (fragMoof pre.length seq ts f).length) =
        .ok (moofsOf (pre.length + (fragMoof pre.length seq ts f).length + (mdatBox (dataOf f)).length) (seq + 1)
          (advance ts f) fs) by rw [hs, bind_ok]
    by_cases h0 : dataOf f = []
    · have : (mdatBox (dataOf f)).length = 0 := by rw [h0]; rfl
      have := key n (by omega)
      rw [h0] at this ⊢
      exact this
    · obtain ⟨n, rfl⟩ : ∃ k, n = k + 1 := ⟨n - 1, by omega⟩
      obtain ⟨v, hd', hm⟩ := top_mdat h0 (by omega) (pre.length + (fragMoof pre.length seq ts f).length) R
      have hml : 0 < (mdatBox (dataOf f)).length := by
        unfold mdatBox
        rw [if_neg h0]
        simp only [box, List.length_append, be_length]; omega
      have hdrop : file.drop (pre.length + (fragMoof pre.length seq ts f).length) = mdatBox (dataOf f) ++ R := by
        rw [hfile, ← List.append_assoc, ← List.length_append, List.drop_left]
      rw [scan_step (by omega) (by rw [hdrop]; exact hm)]
      dsimp only
      have hpos : file.length - R.length =
          pre.length + (fragMoof pre.length seq ts f).length + (mdatBox (dataOf f)).length := by omega
      rw [hpos, key n (by omega)]
      rfl

theorem count_le (trex : Nat → Option Trex) : ∀ (fs : List (List Op)) (pre : Bytes) (seq : Nat) (ts : List Track),
    InRange trex pre seq ts fs → 2 * fs.length ≤ (laidOut pre.length seq ts fs).length := by
  intro fs
  induction fs with
  | nil => intro pre seq ts _; simp
  | cons f fs ih =>
    intro pre seq ts h
    have := ih _ _ _ h.next
    rw [next_length] at this
    have h1 := (moof_length h.one).1
    rw [laidOut]
    simp only [List.length_append, List.length_cons]
    omega

/-! ## One fragment of a track -/

/-- The track fragment that is merged, after its defaults were filled in. -/
def fragOf (b : Nat) (t : Traf.Traf) (j : Nat → Junk) : Frag :=
  ⟨head (rebase b t), t.tfdt.map Tfdt.time,
    t.runs.mapIdx fun k r => (j k, Traf.seen (ready (head (rebase b t)) r))⟩

theorem mergeTrafs_cons (trex : Nat → Option Trex) (junk : Nat → Nat → Nat → Junk) (moof b : Nat) (hb : b < 2 ^ 64)
    {t : Traf.Traf} (hfit : Fits t) (h2 : t.tfhd.trackId ≠ 0) (h3 : trex t.tfhd.trackId = some t.trex) {s : Tables} {m : Table}
    (hm : s t.tfhd.trackId = some m) (L : List (Option RTraf)) (base : Nat) :
    mergeTrafs trex junk moof (some (back (rebase b t)) :: L) base s =
      (mergeFragment (fragOf b t (junk moof L.length)) m).bind fun r =>
        match r.2 with
        | some e => .err e
        | none => mergeTrafs trex junk moof L (dataEnd (head (rebase b t)) (back (rebase b t)).runs) (s.set t.tfhd.trackId r.1) := by
  have hf := rebase_fits hfit hb
  have hk := Traf.defaults_keeps (rebase b t).tfhd hf.runs
  have ht : (Traf.hseen (head (rebase b t))).trackId = t.tfhd.trackId := hk.track
  rw [mergeTrafs]
  have e0 : (back (rebase b t)).tfhd = some (Traf.hseen (head (rebase b t))) := rfl
  rw [e0]
  dsimp only
  rw [ht, if_neg h2, h3]
  dsimp only
  rw [hm]
  dsimp only
  have e : t.trex = (rebase b t).trex := rfl
  rw [e, Traf.fill_head]
  have er : (back (rebase b t)).runs.mapIdx (fun k r => (junk moof L.length k, r)) =
      (fragOf b t (junk moof L.length)).runs := by
    show (t.runs.map _).mapIdx _ = _
    unfold fragOf
    dsimp only
    apply List.ext_getElem?
    intro i
    rw [List.getElem?_mapIdx, List.getElem?_mapIdx, List.getElem?_map]
    cases t.runs[i]? <;> rfl
  rw [er]
  have ef : (⟨head (rebase b t), (back (rebase b t)).tfdt.map Tfdt.time, (fragOf b t (junk moof L.length)).runs⟩ : Frag) =
      fragOf b t (junk moof L.length) := rfl
  rw [ef]
  cases mergeFragment (fragOf b t (junk moof L.length)) m with
  | ub => rfl
  | err e => rfl
  | ok r => cases hr : r.2 <;> simp only [bind_ok, hr]

theorem mergeTrafs_ok (trex : Nat → Option Trex) (junk : Nat → Nat → Nat → Junk) (moof b : Nat) (hb : b < 2 ^ 64)
    (Q : Traf.Traf → Table → Prop) : ∀ (L : List Traf.Traf) (base : Nat) (s : Tables),
    (L.map fun t => t.tfhd.trackId).Nodup →
    (∀ t ∈ L, Fits t ∧ t.tfhd.trackId ≠ 0 ∧ trex t.tfhd.trackId = some t.trex ∧
      ∃ m, s t.tfhd.trackId = some m ∧ ∀ j, ∃ m', mergeFragment (fragOf b t j) m = .ok (m', none) ∧ Q t m') →
    ∃ s', mergeTrafs trex junk moof (L.map fun t => some (back (rebase b t))) base s = .ok s' ∧
      (∀ t ∈ L, ∃ m', s' t.tfhd.trackId = some m' ∧ Q t m') ∧
      ∀ id, id ∉ (L.map fun t => t.tfhd.trackId) → s' id = s id := by
  intro L
  induction L with
  | nil => intro base s _ _; exact ⟨s, rfl, by simp, fun _ _ => rfl⟩
  | cons t L ih =>
    intro base s hnd h
    rw [List.map_cons, List.nodup_cons] at hnd
    obtain ⟨hfit, h2, h3, m, hm, hq⟩ := h t (by simp)
    obtain ⟨m', e1, e2⟩ := hq (junk moof L.length)
    obtain ⟨s', k1, k2, k3⟩ := ih (dataEnd (head (rebase b t)) (back (rebase b t)).runs) (s.set t.tfhd.trackId m') hnd.2
      (by
        intro x hx
        obtain ⟨a1, a2, a3, mx, a4, a5⟩ := h x (by simp [hx])
        refine ⟨a1, a2, a3, mx, ?_, a5⟩
        unfold Tables.set
        rw [if_neg, a4]
        intro hc
        exact hnd.1 (List.mem_map.2 ⟨x, hx, hc⟩))
    refine ⟨s', ?_, ?_, ?_⟩
    · rw [List.map_cons, mergeTrafs_cons trex junk moof b hb hfit h2 h3 hm, List.length_map, e1, bind_ok]
      exact k1
    · intro x hx
      rcases List.mem_cons.1 hx with rfl | hx
      · refine ⟨m', ?_, e2⟩
        rw [k3 _ hnd.1]
        simp [Tables.set]
      · exact k2 x hx
    · intro id hid
      rw [List.map_cons, List.mem_cons, not_or] at hid
      rw [k3 id hid.2]
      simp [Tables.set, hid.1]

/-! ## The pieces of a track -/

/-- The piece that a call which added samples becomes; the media data begins at `b`. -/
def pieceOf (b : Nat) (x : Nat × Samples) : Piece :=
  ⟨b + x.1, x.2.wanted, x.2.wanted.any (·.offset != 0)⟩

def piecesFrom (i : Nat) : Nat → Nat → List Track → List (List Op) → List Piece
  | _, _, _, [] => []
  | pre, seq, ts, f :: fs => (laid i 0 f).map (pieceOf (pre + (fragMoof pre seq ts f).length + 8)) ++
      piecesFrom i (pre + (fragMoof pre seq ts f).length + (mdatBox (dataOf f)).length) (seq + 1) (advance ts f) fs

theorem piece_ready (b : Nat) (h : Tfhd) (hh : h.base = b) {x : Nat × Samples} (hx : x.1 < 2 ^ 31) (hb : b + x.1 < 2 ^ 64)
    (hn : x.2.wanted ≠ []) : Merge.piece h (Traf.seen (ready h (runOf x))) = pieceOf b x := by
  unfold Merge.piece
  rw [Traf.mergeRun_eq (r := runOf x) hn]
  dsimp only
  have h6 := (Traf.bits_has h (runOf x)).2.2.2.2.2
  have e : (Traf.seen (ready h (runOf x))).flags = Traf.bits h (runOf x) := rfl
  have e2 : s32 (runOf x).dataOffset = (x.1 : Int) := by
    unfold s32 runOf
    dsimp only
    rw [if_pos (by omega)]
  unfold pieceOf
  rw [e, e2, hh]
  congr 1
  · omega

theorem pieces_fragOf {trex : Nat → Option Trex} {ts : List Track} {ops : List Op} (h : FragOk ts ops)
    (hid : ∀ t ∈ ts, IdOk trex t) {i : Nat} {t : Track} (ht : ts[i]? = some t) (hne : adds i ops ≠ []) {b : Nat} (hb : b < 2 ^ 32)
    (j : Nat → Junk) : (fragOf b (trafOf ops i t) j).pieces = (laid i 0 ops).map (pieceOf b) := by
  have hr : (trafOf ops i t).runs ≠ [] := by
    intro hc
    apply hne
    rw [← laid_adds i ops 0]
    simpa [trafOf] using hc
  have hfit : Fits (trafOf ops i t) := (trafOf_ok h hid ht).resolve_left hr
  have hk := Traf.defaults_keeps (rebase b (trafOf ops i t)).tfhd (rebase_fits hfit (show b < 2 ^ 64 by omega)).runs
  have hbase : (head (rebase b (trafOf ops i t))).base = b := hk.base
  have hsm := h.small
  have hw := weights_le ts.length ops
  simp only [FragFile.room] at hsm
  unfold Frag.pieces fragOf
  dsimp only
  apply List.ext_getElem?
  intro k
  rw [List.getElem?_map, List.getElem?_mapIdx, List.getElem?_map]
  show Option.map _ (Option.map _ (((laid i 0 ops).map runOf)[k]?)) = _
  rw [List.getElem?_map]
  cases hx : (laid i 0 ops)[k]? with
  | none => rfl
  | some x =>
    have hm := List.mem_of_getElem? hx
    have hg := (h.each _ (laid_mem hm)).2
    obtain ⟨hle, -⟩ := laid_data i ops [] x hm
    simp only [List.length_nil] at hle
    simp only [Option.map_some]
    rw [piece_ready b _ hbase (by omega) (by omega)]
    intro hc
    have hl := wanted_length x.2
    have hp := hg.nonempty
    rw [hc, List.length_nil] at hl
    omega

/-! ## One fragment of a track is merged -/

theorem merged_one {m : Table} {dref drefs : Nat} {H : List Piece} {D : List Nat} (R : Rep m dref drefs H D)
    (hd1 : 1 ≤ dref) (hd2 : dref ≤ drefs) (f : Frag) (hh : f.tfhd.descIndex = 1 ∧ f.tfhd.flags &&& 0x10000 = 0)
    (hf : Merge.Fits (H ++ f.pieces)) (ht : ∀ t, f.time = some t → D.sum ≤ t ∧ (D = [] → t = 0))
    (hs : (Merge.after D f).sum < 4294967296) :
    ∃ m', mergeFragment f m = .ok (m', none) ∧ Rep m' dref drefs (H ++ f.pieces) (Merge.after D f) := by
  obtain ⟨m', e1, e2⟩ := Rep.all hd1 hd2 [f] m H D R (by simpa using hh) (by simpa using hf) ⟨ht, trivial⟩ (by simpa using hs)
  refine ⟨m', ?_, by simpa using e2⟩
  unfold Merge.mergeAll Merge.Step.andThen at e1
  cases hm : mergeFragment f m with
  | ub => rw [hm] at e1; cases e1
  | err e => rw [hm] at e1; cases e1
  | ok x =>
    obtain ⟨m1, o⟩ := x
    rw [hm, bind_ok] at e1
    cases o with
    | some e => simp at e1
    | none => exact e1

theorem lengthen_eq {D : List Nat} {t : Nat} (h : D.sum ≤ t) (h0 : D = [] → t = 0) : (Merge.lengthen D (some t)).sum = t := by
  unfold Merge.lengthen
  dsimp only
  cases hg : D.getLast? with
  | none =>
    rw [List.getLast?_eq_none_iff] at hg
    subst hg
    rw [h0 rfl]; rfl
  | some d =>
    dsimp only
    have e := getLast?_eq_some_iff_append hg
    have e' : D.sum = D.dropLast.sum + d := by conv => lhs; rw [e, Merge.sum_snoc]
    rw [Merge.sum_snoc]
    omega

theorem laid_durations (i b : Nat) (f : List Op) :
    (((laid i 0 f).map (pieceOf b)).flatMap fun p => p.entries.map Entry.duration) =
      (adds i f).flatMap fun s => s.wanted.map Entry.duration := by
  rw [← laid_adds i f 0, List.flatMap_map, List.flatMap_map]
  rfl

theorem durations_sum (i : Nat) (f : List Op) :
    ((adds i f).flatMap fun s => s.wanted.map Entry.duration).sum = spent i f := by
  unfold spent
  induction adds i f with
  | nil => rfl
  | cons s l ih => simp only [List.flatMap_cons, List.sum_append, List.map_cons, List.sum_cons, ih]

/-- The time that the track has got to, and its first fragment. -/
structure Clock (D : List Nat) (time : Nat) (gs : List (Nat × List Samples)) : Prop where
  le : D.sum ≤ time
  zero : D = [] → ∀ g, gs.head? = some g → g.1 = 0

/-- What is known of a track before the fragments `fs` are merged. -/
structure Known (s : Tables) (i : Nat) (t : Track) (dref drefs : Nat) (H : List Piece) (D : List Nat) (ps : List Piece)
    (fs : List (List Op)) : Prop where
  index : t.trex.descIndex = 1
  ref : 1 ≤ dref ∧ dref ≤ drefs
  rep : ∃ m, s t.id = some m ∧ Rep m dref drefs H D
  fits : Merge.Fits (H ++ ps)
  clock : Clock D t.time (segments i t.time fs)

theorem spent_nil {i : Nat} {f : List Op} (h : adds i f = []) : spent i f = 0 := by
  unfold spent; rw [h]; rfl

theorem index_unique {ts : List Track} (hn : (ts.map Track.id).Nodup) {i k : Nat} {t u : Track} (ht : ts[i]? = some t)
    (hu : ts[k]? = some u) (h : t.id = u.id) : i = k := by
  have hi : (ts.map Track.id)[i]? = some t.id := by rw [List.getElem?_map, ht]; rfl
  have hk : (ts.map Track.id)[k]? = some t.id := by rw [List.getElem?_map, hu, h]; rfl
  obtain ⟨hi1, hi2⟩ := List.getElem?_eq_some_iff.1 hi
  obtain ⟨hk1, hk2⟩ := List.getElem?_eq_some_iff.1 hk
  rw [← List.Nodup.idxOf_getElem hn i hi1, ← List.Nodup.idxOf_getElem hn k hk1, hi2, hk2]

theorem present_mem {ts : List Track} {f : List Op} {y : Track × Nat} (h : y ∈ present ts f) :
    ts[y.2]? = some y.1 ∧ adds y.2 f ≠ [] := by
  obtain ⟨h1, h2⟩ := List.mem_filter.1 h
  obtain ⟨t, i⟩ := y
  exact ⟨List.mem_zipIdx_iff_getElem?.1 h1, by simpa using h2⟩

theorem mem_present {ts : List Track} {f : List Op} {i : Nat} {t : Track} (h : ts[i]? = some t) (h' : adds i f ≠ []) :
    (t, i) ∈ present ts f :=
  List.mem_filter.2 ⟨List.mem_zipIdx_iff_getElem?.2 h, by simpa using h'⟩

theorem present_nodup {ts : List Track} (hn : (ts.map Track.id).Nodup) (f : List Op) :
    ((present ts f).map fun y => y.1.id).Nodup := by
  have e : (ts.zipIdx.map fun y => y.1.id) = ts.map Track.id := by
    apply List.ext_getElem?
    intro i
    rw [List.getElem?_map, List.getElem?_map, List.getElem?_zipIdx]
    cases ts[i]? <;> rfl
  rw [← e] at hn
  exact List.Sublist.nodup (List.Sublist.map _ List.filter_sublist) hn

theorem advance_id (ts : List Track) (f : List Op) : (advance ts f).map Track.id = ts.map Track.id := by
  apply List.ext_getElem?
  intro i
  unfold advance
  rw [List.getElem?_map, List.getElem?_map, List.getElem?_mapIdx]
  cases ts[i]? <;> rfl

theorem head_flags (t : Traf.Traf) : (head t).flags &&& 0x10000 = 0 := by
  have : has (head t).flags 0x10000 = false := by
    show has (Traf.tfhdFlags _ _) 0x10000 = false
    rw [Traf.tfhdFlags_eq]
    exact henc_empty _ _ _ _
  unfold has at this
  simpa using this

/-- All tracks after one fragment. -/
theorem merge_moof {trex : Nat → Option Trex} (junk : Nat → Nat → Nat → Junk) {pre : Bytes} {seq : Nat} {ts : List Track}
    {f : List Op} {fs : List (List Op)} (h : InRange trex pre seq ts (f :: fs)) (hn : (ts.map Track.id).Nodup)
    {s : Tables} {dref drefs : Nat → Nat} {H : Nat → List Piece} {D : Nat → List Nat}
    (hk : ∀ i t, ts[i]? = some t → Known s i t (dref i) (drefs i) (H i) (D i) (piecesFrom i pre.length seq ts (f :: fs)) (f :: fs)) :
    ∃ s', mergeTrafs trex junk pre.length
        (moofBack seq (pre.length + (fragMoof pre.length seq ts f).length + 8) (ts.mapIdx (trafOf f))).trafs pre.length s = .ok s' ∧
      ∀ i x, ts[i]? = some x →
        Known s' i { x with time := x.time + delays f + spent i f } (dref i) (drefs i)
          (H i ++ (laid i 0 f).map (pieceOf (pre.length + (fragMoof pre.length seq ts f).length + 8)))
          (if adds i f = [] then D i else Merge.lengthen (D i) (some (x.time + delays f)) ++
            (adds i f).flatMap fun s => s.wanted.map Entry.duration)
          (piecesFrom i (pre.length + (fragMoof pre.length seq ts f).length + (mdatBox (dataOf f)).length) (seq + 1)
            (advance ts f) fs) fs := by
  have one := h.one
  obtain ⟨h1, h2⟩ := moof_length one
  have hroom := one.room
  have hb : pre.length + (fragMoof pre.length seq ts f).length + 8 < 2 ^ 32 := by omega
  generalize hbe : pre.length + (fragMoof pre.length seq ts f).length + 8 = b at hb
  let Q : Traf.Traf → Table → Prop := fun tr m => ∀ i t, ts[i]? = some t → t.id = tr.tfhd.trackId →
    Rep m (dref i) (drefs i) (H i ++ (laid i 0 f).map (pieceOf b))
      (Merge.lengthen (D i) (some (t.time + delays f)) ++ (adds i f).flatMap fun s => s.wanted.map Entry.duration)
  have hfits : ∀ i t, ts[i]? = some t → Merge.Fits ((H i ++ (laid i 0 f).map (pieceOf b)) ++
      piecesFrom i (pre.length + (fragMoof pre.length seq ts f).length + (mdatBox (dataOf f)).length) (seq + 1)
            (advance ts f) fs) := by
    intro i t ht
    have := (hk i t ht).fits
    rw [piecesFrom, hbe, ← List.append_assoc] at this
    exact this
  have hstart : ∀ i t, ts[i]? = some t → adds i f ≠ [] →
      (D i).sum ≤ t.time + delays f ∧ (D i = [] → t.time + delays f = 0) := by
    intro i t ht hne
    have c := (hk i t ht).clock
    refine ⟨by have := c.le; omega, fun h0 => ?_⟩
    have := c.zero h0 (t.time + delays f, adds i f) (by rw [segments, if_neg hne]; rfl)
    exact this
  obtain ⟨s', k1, k2, k3⟩ := mergeTrafs_ok trex junk pre.length b (by omega) Q (kept (ts.mapIdx (trafOf f))) pre.length s
    (by
      rw [kept_eq, List.map_map]
      exact present_nodup hn f)
    (by
      intro tr htr
      rw [kept_eq] at htr
      obtain ⟨y, hy, rfl⟩ := List.mem_map.1 htr
      obtain ⟨hz, hne⟩ := present_mem hy
      have ho := one.ids y.1 (List.mem_of_getElem? hz)
      have hK := hk y.2 y.1 hz
      obtain ⟨m, hm, R⟩ := hK.rep
      have hr : (trafOf f y.2 y.1).runs ≠ [] := by
        intro hc
        apply hne
        rw [← laid_adds y.2 f 0]
        simpa [trafOf] using hc
      have hfit : Fits (trafOf f y.2 y.1) := (trafOf_ok one.frag one.ids hz).resolve_left hr
      have hkeep := Traf.defaults_keeps (rebase b (trafOf f y.2 y.1)).tfhd (rebase_fits hfit (show b < 2 ^ 64 by omega)).runs
      refine ⟨hfit, by have := ho.pos; show y.1.id ≠ 0; omega, ho.known, m, hm, fun j => ?_⟩
      have hp := pieces_fragOf one.frag one.ids hz hne hb j
      have ha : Merge.after (D y.2) (fragOf b (trafOf f y.2 y.1) j) =
          Merge.lengthen (D y.2) (some (y.1.time + delays f)) ++ (adds y.2 f).flatMap fun s => s.wanted.map Entry.duration := by
        unfold Merge.after
        rw [hp, laid_durations]
        rfl
      obtain ⟨c1, c2⟩ := hstart y.2 y.1 hz hne
      obtain ⟨m', e1, e2⟩ := merged_one R hK.ref.1 hK.ref.2 (fragOf b (trafOf f y.2 y.1) j)
        ⟨hkeep.index.trans hK.index, head_flags _⟩ (by rw [hp]; exact (hfits y.2 y.1 hz).left)
        (by
          intro t ht
          have : t = y.1.time + delays f := by
            have e : (fragOf b (trafOf f y.2 y.1) j).time = some (y.1.time + delays f) := rfl
            rw [e] at ht
            injection ht with ht
            exact ht.symm
          subst this
          exact ⟨c1, c2⟩)
        (by
          rw [ha, List.sum_append, lengthen_eq c1 c2, durations_sum]
          have := one.frag.time y.2 y.1 hz
          omega)
      refine ⟨m', e1, fun i t ht hid => ?_⟩
      obtain rfl := index_unique hn ht hz hid
      rw [hz] at ht
      injection ht with ht
      subst ht
      rw [hp, ha] at e2
      exact e2)
  refine ⟨s', k1, fun i x hx => ?_⟩
  have hK := hk i x hx
  refine ⟨hK.index, hK.ref, ?_, hfits i x hx, ?_⟩
  · by_cases hne : adds i f = []
    · have hl : laid i 0 f = [] := by
        have := laid_adds i f 0
        rw [hne] at this
        simpa using this
      obtain ⟨m, hm, R⟩ := hK.rep
      refine ⟨m, ?_, ?_⟩
      · rw [k3 x.id ?_]
        · exact hm
        · intro hc
          rw [kept_eq, List.map_map] at hc
          obtain ⟨y, hy, hyid⟩ := List.mem_map.1 hc
          obtain ⟨hz, hne'⟩ := present_mem hy
          obtain rfl := index_unique hn hx hz hyid.symm
          exact hne' hne
      · rw [if_pos hne, hl]
        simpa using R
    · obtain ⟨m', e1, e2⟩ := k2 (trafOf f i x) (by
        rw [kept_eq]
        exact List.mem_map.2 ⟨(x, i), mem_present hx hne, rfl⟩)
      refine ⟨m', e1, ?_⟩
      rw [if_neg hne]
      exact e2 i x hx rfl
  · have c := hK.clock
    by_cases hne : adds i f = []
    · rw [if_pos hne, spent_nil hne, Nat.add_zero]
      refine ⟨by have := c.le; show (D i).sum ≤ x.time + delays f; omega, fun h0 g hg => c.zero h0 g ?_⟩
      rw [segments, if_pos hne]
      exact hg
    · rw [if_neg hne]
      obtain ⟨c1, c2⟩ := hstart i x hx hne
      refine ⟨?_, fun h0 => ?_⟩
      · rw [List.sum_append, lengthen_eq c1 c2, durations_sum]
        exact Nat.le_refl _
      · exfalso
        have hs : ∃ s, s ∈ adds i f := by
          cases hl : adds i f with
          | nil => exact absurd hl hne
          | cons a l => exact ⟨a, by simp⟩
        obtain ⟨s, hs⟩ := hs
        have hg := (one.frag.each _ (adds_mem hs)).2
        have := (List.append_eq_nil_iff.1 h0).2
        rw [List.flatMap_eq_nil_iff] at this
        have h3 := this s hs
        have hl := wanted_length s
        have hp := hg.nonempty
        rw [List.map_eq_nil_iff] at h3
        rw [h3, List.length_nil] at hl
        omega

theorem merge_all {trex : Nat → Option Trex} (junk : Nat → Nat → Nat → Junk) : ∀ (fs : List (List Op)) (pre : Bytes)
    (seq : Nat) (ts : List Track) (s : Tables) (dref drefs : Nat → Nat) (H : Nat → List Piece) (D : Nat → List Nat)
    (prev : Option Nat), InRange trex pre seq ts fs → (ts.map Track.id).Nodup → (∀ p, prev = some p → p < seq) →
    (∀ i t, ts[i]? = some t → Known s i t (dref i) (drefs i) (H i) (D i) (piecesFrom i pre.length seq ts fs) fs) →
    ∃ s', FragSeq.mergeLoop (fun x s => mergeTrafs trex junk x.1 x.2 x.1 s) prev ((moofsOf pre.length seq ts fs).map toMerge) s =
        .ok s' ∧
      ∀ i t, ts[i]? = some t → ∃ m, s' t.id = some m ∧
        Rep m (dref i) (drefs i) (H i ++ piecesFrom i pre.length seq ts fs) (timeline (segments i t.time fs) (D i)) := by
  intro fs
  induction fs with
  | nil =>
    intro pre seq ts s dref drefs H D prev _ _ _ hk
    refine ⟨s, rfl, fun i t ht => ?_⟩
    obtain ⟨m, hm, R⟩ := (hk i t ht).rep
    exact ⟨m, hm, by simpa [piecesFrom, segments, timeline] using R⟩
  | cons f fs ih =>
    intro pre seq ts s dref drefs H D prev h hn hprev hk
    obtain ⟨s1, a1, a2⟩ := merge_moof junk h hn hk
    have hnext := h.next
    have hl := next_length pre seq ts f
    generalize pre ++ (fragMoof pre.length seq ts f ++ mdatBox (dataOf f)) = pre' at hnext hl
    rw [← hl] at a2
    obtain ⟨s', b1, b2⟩ := ih pre' (seq + 1) (advance ts f) s1 dref drefs
      (fun i => H i ++ (laid i 0 f).map (pieceOf (pre.length + (fragMoof pre.length seq ts f).length + 8)))
      (fun i => match ts[i]? with
        | none => []
        | some x => if adds i f = [] then D i else Merge.lengthen (D i) (some (x.time + delays f)) ++
            (adds i f).flatMap fun s => s.wanted.map Entry.duration) (some seq) hnext
      (by rw [advance_id]; exact hn) (by intro p hp; injection hp with hp; omega)
      (fun i t ht => by
        obtain ⟨x, hx, rfl⟩ := advance_get ht
        rw [hx]
        exact a2 i x hx)
    refine ⟨s', ?_, fun i t ht => ?_⟩
    · rw [moofsOf, List.map_cons, FragSeq.mergeLoop, ← hl]
      have e1 : (toMerge (pre.length, moofBack seq (pre.length + (fragMoof pre.length seq ts f).length + 8)
          (ts.mapIdx (trafOf f)))).mfhd = some seq := rfl
      rw [e1]
      dsimp only
      cases prev with
      | none =>
        dsimp only
        exact (congrArg (Res.bind · _) a1).trans b1
      | some p =>
        dsimp only
        rw [if_neg (by have := hprev p rfl; omega)]
        exact (congrArg (Res.bind · _) a1).trans b1
    · have hadv : (advance ts f)[i]? = some { t with time := t.time + delays f + spent i f } := by
        unfold advance
        rw [List.getElem?_mapIdx, ht]
        rfl
      obtain ⟨m, hm, R⟩ := b2 i _ hadv
      refine ⟨m, hm, ?_⟩
      rw [ht] at R
      dsimp only at R
      rw [piecesFrom, ← hl, ← List.append_assoc, segments]
      by_cases hne : adds i f = []
      · rw [if_pos hne] at R ⊢
        rw [spent_nil hne, Nat.add_zero] at R
        exact R
      · rw [if_neg hne] at R ⊢
        exact R

end Verif.FragFile
