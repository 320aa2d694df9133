import Verif.Model.Rows
import Verif.Lemmas.Auto

/-!
# C68 — boxes with fixed fields survive being written and parsed

Full property: each of these boxes is written in the layout of its standard and parsed again to the same
fields, for all values of the fields and all versions. The code has no 32-bit item number in version 1 of the
primary item box (`c68_pitm_version1`) and no 64-bit media time in version 1 of the producer reference time
(`c68_prft_version1`), so these two are for version 0.
-/

namespace Verif.Rows

theorem assertRead_ok {α : Type} {h : Hdr} {k : Nat} (v : α) (hk : k = h.size) :
    ParsesAt (assertRead h v) k [] v := by
  unfold assertRead
  refine parsesAt_bytesRead ?_
  rw [if_neg (by omega)]
  exact (parses_pure _).at _

/-! ## Rows of fields -/

/-- Video media header. -/
theorem c68_vmhd (version flags : Nat) (x : Vmhd) (hv : version < 256) (hf : flags < 2 ^ 24)
    (h0 : x.mode < 2 ^ 16) (h1 : x.red < 2 ^ 16) (h2 : x.green < 2 ^ 16) (h3 : x.blue < 2 ^ 16) :
    BoxRoundTrip 20 (x.serialize version flags) Vmhd.parse ((version, flags), x)
      (fullBox (fcc 'v' 'm' 'h' 'd') version flags
        (be 2 x.mode ++ (be 2 x.red ++ (be 2 x.green ++ (be 2 x.blue))))) := by
  have ht : typeVmhd = fcc 'v' 'm' 'h' 'd' := by decide
  rw [← ht]
  refine BoxRoundTrip.ofFull (type := typeVmhd) ?_ ?_ (by simp only [List.length_append, be_length]) (by decide)
    (by decide) (by decide)
  · emits
  · unfold Vmhd.parse
    refine ((parses_versionFlags hv hf).at _).bind ?_
    refine parsesAt_bytesRead ?_
    rw [if_pos (by simp)]
    refine ((parses_get16' h0).at _).bind ?_
    refine ((parses_get16' h1).at _).bind ?_
    refine ((parses_get16' h2).at _).bind ?_
    refine ((parses_get16' h3).at _).bind_nil ?_
    exact (parses_pure _).at _

/-- Sound media header. -/
theorem c68_smhd (version flags : Nat) (x : Smhd) (hv : version < 256) (hf : flags < 2 ^ 24)
    (h0 : x.balance < 2 ^ 16) (h1 : x.reserved < 2 ^ 16) :
    BoxRoundTrip 16 (x.serialize version flags) Smhd.parse ((version, flags), x)
      (fullBox (fcc 's' 'm' 'h' 'd') version flags
        (be 2 x.balance ++ (be 2 x.reserved))) := by
  have ht : typeSmhd = fcc 's' 'm' 'h' 'd' := by decide
  rw [← ht]
  refine BoxRoundTrip.ofFull (type := typeSmhd) ?_ ?_ (by simp only [List.length_append, be_length]) (by decide)
    (by decide) (by decide)
  · emits
  · unfold Smhd.parse
    refine ((parses_versionFlags hv hf).at _).bind ?_
    refine ((parses_get16' h0).at _).bind ?_
    refine ((parses_get16' h1).at _).bind_nil ?_
    exact (parses_pure _).at _

/-- Hint media header. -/
theorem c68_hmhd (version flags : Nat) (x : Hmhd) (hv : version < 256) (hf : flags < 2 ^ 24)
    (h0 : x.maxPDU < 2 ^ 16) (h1 : x.avgPDU < 2 ^ 16) (h2 : x.maxRate < 2 ^ 32) (h3 : x.avgRate < 2 ^ 32) (h4 : x.sliding < 2 ^ 32) :
    BoxRoundTrip 28 (x.serialize version flags) Hmhd.parse ((version, flags), x)
      (fullBox (fcc 'h' 'm' 'h' 'd') version flags
        (be 2 x.maxPDU ++ (be 2 x.avgPDU ++ (be 4 x.maxRate ++ (be 4 x.avgRate ++ (be 4 x.sliding)))))) := by
  have ht : typeHmhd = fcc 'h' 'm' 'h' 'd' := by decide
  rw [← ht]
  refine BoxRoundTrip.ofFull (type := typeHmhd) ?_ ?_ (by simp only [List.length_append, be_length]) (by decide)
    (by decide) (by decide)
  · emits
  · unfold Hmhd.parse
    refine ((parses_versionFlags hv hf).at _).bind ?_
    refine ((parses_get16' h0).at _).bind ?_
    refine ((parses_get16' h1).at _).bind ?_
    refine ((parses_get32' h2).at _).bind ?_
    refine ((parses_get32' h3).at _).bind ?_
    refine ((parses_get32' h4).at _).bind_nil ?_
    exact (parses_pure _).at _

/-- Track extends. -/
theorem c68_trex (version flags : Nat) (x : Trex) (hv : version < 256) (hf : flags < 2 ^ 24)
    (h0 : x.track < 2 ^ 32) (h1 : x.desc < 2 ^ 32) (h2 : x.duration < 2 ^ 32) (h3 : x.size < 2 ^ 32) (h4 : x.sampleFlags < 2 ^ 32) :
    BoxRoundTrip 32 (x.serialize version flags) Trex.parse ((version, flags), x)
      (fullBox (fcc 't' 'r' 'e' 'x') version flags
        (be 4 x.track ++ (be 4 x.desc ++ (be 4 x.duration ++ (be 4 x.size ++ (be 4 x.sampleFlags)))))) := by
  have ht : typeTrex = fcc 't' 'r' 'e' 'x' := by decide
  rw [← ht]
  refine BoxRoundTrip.ofFull (type := typeTrex) ?_ ?_ (by simp only [List.length_append, be_length]) (by decide)
    (by decide) (by decide)
  · emits
  · unfold Trex.parse
    refine ((parses_versionFlags hv hf).at _).bind ?_
    refine ((parses_get32' h0).at _).bind ?_
    refine ((parses_get32' h1).at _).bind ?_
    refine ((parses_get32' h2).at _).bind ?_
    refine ((parses_get32' h3).at _).bind ?_
    refine ((parses_get32' h4).at _).bind_nil ?_
    exact (parses_pure _).at _

/-- Producer reference time, in the layout of version 0. -/
theorem c68_prft (version flags : Nat) (x : Prft) (hv : version < 256) (hf : flags < 2 ^ 24)
    (h0 : x.track < 2 ^ 32) (h1 : x.ntp < 2 ^ 64) (h2 : x.media < 2 ^ 32) :
    BoxRoundTrip 28 (x.serialize version flags) Prft.parse ((version, flags), x)
      (fullBox (fcc 'p' 'r' 'f' 't') version flags
        (be 4 x.track ++ (be 8 x.ntp ++ (be 4 x.media)))) := by
  have ht : typePrft = fcc 'p' 'r' 'f' 't' := by decide
  rw [← ht]
  refine BoxRoundTrip.ofFull (type := typePrft) ?_ ?_ (by simp only [List.length_append, be_length]) (by decide)
    (by decide) (by decide)
  · exact ((emits_put32 _).seq ((emits_put64 _).seq (emits_put32 _))).full
  · unfold Prft.parse
    refine ((parses_versionFlags hv hf).at _).bind ?_
    refine ((parses_get32' h0).at _).bind ?_
    refine ((parses_get64' h1).at _).bind ?_
    refine ((parses_get32' h2).at _).bind_nil ?_
    exact assertRead_ok _ (by simp)

/-- PCM configuration. -/
theorem c68_pcmc (version flags : Nat) (x : PcmC) (hv : version < 256) (hf : flags < 2 ^ 24)
    (h0 : x.format < 2 ^ 8) (h1 : x.sampleSize < 2 ^ 8) :
    BoxRoundTrip 14 (x.serialize version flags) PcmC.parse ((version, flags), x)
      (fullBox (fcc 'p' 'c' 'm' 'C') version flags
        (be 1 x.format ++ (be 1 x.sampleSize))) := by
  have ht : typePcmC = fcc 'p' 'c' 'm' 'C' := by decide
  rw [← ht]
  refine BoxRoundTrip.ofFull (type := typePcmC) ?_ ?_ (by simp only [List.length_append, be_length]) (by decide)
    (by decide) (by decide)
  · emits
  · unfold PcmC.parse
    refine ((parses_versionFlags hv hf).at _).bind ?_
    refine ((parses_get8' h0).at _).bind ?_
    refine ((parses_get8' h1).at _).bind_nil ?_
    exact assertRead_ok _ (by simp)

/-- ISMACryp sample format. -/
theorem c68_isfm (version flags : Nat) (x : ISFM) (hv : version < 256) (hf : flags < 2 ^ 24)
    (h0 : x.selective < 2 ^ 8) (h1 : x.keyLen < 2 ^ 8) (h2 : x.ivLen < 2 ^ 8) :
    BoxRoundTrip 15 (x.serialize version flags) ISFM.parse ((version, flags), x)
      (fullBox (fcc 'i' 'S' 'F' 'M') version flags
        (be 1 x.selective ++ (be 1 x.keyLen ++ (be 1 x.ivLen)))) := by
  have ht : typeISFM = fcc 'i' 'S' 'F' 'M' := by decide
  rw [← ht]
  refine BoxRoundTrip.ofFull (type := typeISFM) ?_ ?_ (by simp only [List.length_append, be_length]) (by decide)
    (by decide) (by decide)
  · emits
  · unfold ISFM.parse
    refine ((parses_versionFlags hv hf).at _).bind ?_
    refine ((parses_get8' h0).at _).bind ?_
    refine ((parses_get8' h1).at _).bind ?_
    refine ((parses_get8' h2).at _).bind_nil ?_
    exact assertRead_ok _ (by simp)

/-- Metabox relation. -/
theorem c68_mere (version flags : Nat) (x : Mere) (hv : version < 256) (hf : flags < 2 ^ 24)
    (h0 : x.first < 2 ^ 32) (h1 : x.second < 2 ^ 32) (h2 : x.relation < 2 ^ 8) :
    BoxRoundTrip 21 (x.serialize version flags) Mere.parse ((version, flags), x)
      (fullBox (fcc 'm' 'e' 'r' 'e') version flags
        (be 4 x.first ++ (be 4 x.second ++ (be 1 x.relation)))) := by
  have ht : typeMere = fcc 'm' 'e' 'r' 'e' := by decide
  rw [← ht]
  refine BoxRoundTrip.ofFull (type := typeMere) ?_ ?_ (by simp only [List.length_append, be_length]) (by decide)
    (by decide) (by decide)
  · emits
  · unfold Mere.parse
    refine ((parses_versionFlags hv hf).at _).bind ?_
    refine ((parses_get32' h0).at _).bind ?_
    refine ((parses_get32' h1).at _).bind ?_
    refine ((parses_get8' h2).at _).bind_nil ?_
    exact assertRead_ok _ (by simp)

/-- Original format. -/
theorem c68_frma (format : Nat) (h0 : format < 2 ^ 32) :
    BoxRoundTrip 12 (frmaSerialize format) frmaParse format
      (box (fcc 'f' 'r' 'm' 'a') (be 4 format)) := by
  have ht : typeFrma = fcc 'f' 'r' 'm' 'a' := by decide
  rw [← ht]
  refine BoxRoundTrip.of (type := typeFrma) ?_ ?_ (by simp only [List.length_append, be_length]) (by decide)
    (by decide) (by decide)
  · refine (emits_serBase _ _).then ?_
    emits
  · unfold frmaParse
    refine ((parses_get32' h0).at _).bind_nil ?_
    exact assertRead_ok _ (by simp)

/-- AMR configuration. -/
theorem c68_damr (x : Damr) (h0 : x.vendor < 2 ^ 32) (h1 : x.decoder < 2 ^ 8) (h2 : x.modeSet < 2 ^ 16) (h3 : x.period < 2 ^ 8) (h4 : x.frames < 2 ^ 8) :
    BoxRoundTrip 17 x.serialize Damr.parse x
      (box (fcc 'd' 'a' 'm' 'r') (be 4 x.vendor ++ (be 1 x.decoder ++ (be 2 x.modeSet ++ (be 1 x.period ++ (be 1 x.frames)))))) := by
  have ht : typeDamr = fcc 'd' 'a' 'm' 'r' := by decide
  rw [← ht]
  refine BoxRoundTrip.of (type := typeDamr) ?_ ?_ (by simp only [List.length_append, be_length]) (by decide)
    (by decide) (by decide)
  · refine (emits_serBase _ _).then ?_
    emits
  · unfold Damr.parse
    refine ((parses_get32' h0).at _).bind ?_
    refine ((parses_get8' h1).at _).bind ?_
    refine ((parses_get16' h2).at _).bind ?_
    refine ((parses_get8' h3).at _).bind ?_
    refine ((parses_get8' h4).at _).bind_nil ?_
    exact (parses_pure _).at _

/-- Extended AMR configuration. -/
theorem c68_dawp (vendor decoder : Nat) (h0 : vendor < 2 ^ 32) (h1 : decoder < 2 ^ 8) :
    BoxRoundTrip 13 (dawpSerialize vendor decoder) dawpParse (vendor, decoder)
      (box (fcc 'd' 'a' 'w' 'p') (be 4 vendor ++ (be 1 decoder))) := by
  have ht : typeDawp = fcc 'd' 'a' 'w' 'p' := by decide
  rw [← ht]
  refine BoxRoundTrip.of (type := typeDawp) ?_ ?_ (by simp only [List.length_append, be_length]) (by decide)
    (by decide) (by decide)
  · refine (emits_serBase _ _).then ?_
    emits
  · unfold dawpParse
    refine ((parses_get32' h0).at _).bind ?_
    refine ((parses_get8' h1).at _).bind_nil ?_
    exact (parses_pure _).at _

/-- ISMACryp salt. -/
theorem c68_islt (salt : Nat) (h0 : salt < 2 ^ 64) :
    BoxRoundTrip 16 (isltSerialize salt) isltParse salt
      (box (fcc 'i' 'S' 'L' 'T') (be 8 salt)) := by
  have ht : typeISLT = fcc 'i' 'S' 'L' 'T' := by decide
  rw [← ht]
  refine BoxRoundTrip.of (type := typeISLT) ?_ ?_ (by simp only [List.length_append, be_length]) (by decide)
    (by decide) (by decide)
  · refine (emits_serBase _ _).then ?_
    emits
  · unfold isltParse
    refine ((parses_get64' h0).at _).bind_nil ?_
    exact assertRead_ok _ (by simp)

/-- Bit rates. -/
theorem c68_btrt (x : Btrt) (h0 : x.buffer < 2 ^ 32) (h1 : x.max < 2 ^ 32) (h2 : x.avg < 2 ^ 32) :
    BoxRoundTrip 20 (x.serialize typeBtrt) Btrt.parse x
      (box (fcc 'b' 't' 'r' 't') (be 4 x.buffer ++ (be 4 x.max ++ be 4 x.avg))) := by
  have ht : typeBtrt = fcc 'b' 't' 'r' 't' := by decide
  rw [← ht]
  refine BoxRoundTrip.of (type := typeBtrt) ?_ ?_ (by simp only [List.length_append, be_length]) (by decide)
    (by decide) (by decide)
  · unfold Btrt.serialize
    rw [if_pos rfl]
    refine (emits_serBase _ _).then ?_
    emits
  · unfold Btrt.parse
    rw [if_pos rfl]
    refine ((parses_get32' h0).at _).bind ?_
    refine ((parses_get32' h1).at _).bind ?_
    refine ((parses_get32' h2).at _).bind_nil ?_
    exact (parses_pure _).at _

/-- Bit rates of 3GPP: no buffer size, the other order. -/
theorem c68_bitr (max avg : Nat) (h1 : max < 2 ^ 32) (h2 : avg < 2 ^ 32) :
    BoxRoundTrip 16 ((⟨0, max, avg⟩ : Btrt).serialize (fcc 'b' 'i' 't' 'r')) Btrt.parse ⟨0, max, avg⟩
      (box (fcc 'b' 'i' 't' 'r') (be 4 avg ++ be 4 max)) := by
  have hne : ¬ fcc 'b' 'i' 't' 'r' = typeBtrt := by decide
  refine BoxRoundTrip.of ?_ ?_ (by simp only [List.length_append, be_length]) (by decide)
    (by decide) (by decide)
  · unfold Btrt.serialize Btrt.calcSize
    rw [if_neg hne, if_neg hne]
    refine (emits_serBase _ _).then ?_
    emits
  · unfold Btrt.parse
    rw [if_neg hne]
    refine ((parses_get32' h2).at _).bind ?_
    refine ((parses_get32' h1).at _).bind_nil ?_
    exact (parses_pure _).at _

/-- Primary item, in the layout of version 0. -/
theorem c68_pitm (version flags item : Nat) (hv : version < 256) (hf : flags < 2 ^ 24) (hi : item < 2 ^ 16) :
    BoxRoundTrip 14 (pitmSerialize version flags item) pitmParse ((version, flags), item)
      (fullBox (fcc 'p' 'i' 't' 'm') version flags (be 2 item)) := by
  have ht : typePitm = fcc 'p' 'i' 't' 'm' := by decide
  rw [← ht]
  refine BoxRoundTrip.ofFull (type := typePitm) ?_ ?_ (by simp only [be_length]) (by decide)
    (by decide) (by decide)
  · emits
  · unfold pitmParse
    refine ((parses_versionFlags hv hf).at _).bind ?_
    refine ((parses_get16' hi).at _).bind_nil ?_
    exact (parses_pure _).at _

/-! ## Tables -/

/-- Shadow sync samples. -/
theorem c68_stsh (version flags : Nat) (es : List (Nat × Nat)) (hv : version < 256) (hf : flags < 2 ^ 24)
    (he : ∀ e ∈ es, e.1 < 2 ^ 32 ∧ e.2 < 2 ^ 32) (hl : 16 + 8 * es.length < 2 ^ 32) :
    BoxRoundTrip (16 + 8 * es.length) (stshSerialize version flags es) stshParse ((version, flags), es)
      (fullBox (fcc 's' 't' 's' 'h') version flags
        (be 4 es.length ++ es.flatMap fun e => be 4 e.1 ++ be 4 e.2)) := by
  have ht : typeStsh = fcc 's' 't' 's' 'h' := by decide
  rw [← ht]
  have hsz : stshSize es.length = 16 + 8 * es.length := by unfold stshSize; omega
  have hlen : (es.flatMap fun e => be 4 e.1 ++ be 4 e.2).length = 8 * es.length :=
    flatMap_length_const (c := 8) _ fun _ _ => by simp
  unfold stshSerialize
  rw [hsz]
  refine BoxRoundTrip.ofFull (type := typeStsh) ?_ ?_ (by rw [List.length_append, hlen, be_length]; omega) hl
    (by decide) (by decide)
  · exact (emits_put32 _).then ((Emits.each es fun e _ => (emits_put32 _).seq (emits_put32 _)).thenAssert)
  · unfold stshParse
    refine ((parses_versionFlags hv hf).at _).bind ?_
    refine ((parses_get32' (by omega)).at _).bind ?_
    refine ((parses_repeat es _ ?_ rfl).at _).bind_nil ?_
    · intro e hm
      obtain ⟨h1, h2⟩ := he e hm
      refine (parses_get32' h1).bind ?_
      refine (parses_get32' h2).bind_nil ?_
      exact parses_pure _
    · exact (parses_pure _).at _

/-- Degradation priorities: their number comes from the size of the box. -/
theorem c68_stdp (version flags : Nat) (ps : List Nat) (hv : version < 256) (hf : flags < 2 ^ 24)
    (hp : ∀ p ∈ ps, p < 2 ^ 16) (hl : 12 + 2 * ps.length < 2 ^ 32) :
    BoxRoundTrip (12 + 2 * ps.length) (stdpSerialize version flags ps) stdpParse ((version, flags), ps)
      (fullBox (fcc 's' 't' 'd' 'p') version flags (ps.flatMap (be 2))) := by
  have ht : typeStdp = fcc 's' 't' 'd' 'p' := by decide
  rw [← ht]
  have hsz : stdpSize ps.length = 12 + 2 * ps.length := by unfold stdpSize; omega
  have hlen : (ps.flatMap (be 2)).length = 2 * ps.length :=
    flatMap_length_const (c := 2) _ fun _ _ => be_length _ _
  unfold stdpSerialize
  rw [hsz]
  refine BoxRoundTrip.ofFull (type := typeStdp) ?_ ?_ (by rw [hlen]) hl (by decide) (by decide)
  · exact (Emits.each ps fun p _ => emits_put16 _).thenAssert
  · unfold stdpParse
    refine ((parses_versionFlags hv hf).at _).bind ?_
    refine parsesAt_bytesRead ?_
    refine ((parses_repeat ps _ (fun p hm => parses_get16' (hp p hm)) ?_).at _).bind_nil ?_
    · simp only [List.length_append, be_length]; omega
    · exact (parses_pure _).at _

/-! ## The hypotheses can be met -/

example := c68_vmhd 0 1 ⟨0x40, 0x8000, 0x8000, 0xffff⟩ (by decide) (by decide) (by decide) (by decide)
  (by decide) (by decide)

example := c68_stsh 0 0 [(5, 1), (9, 8)] (by decide) (by decide) (by decide) (by decide)

example := c68_stdp 0 0 [3, 65535, 0] (by decide) (by decide) (by decide) (by decide)

/-! ## Version 1 -/

theorem be4_split (n : Nat) : be 4 n = be 2 (n / 65536) ++ be 2 n := by
  simp [be, Nat.div_div_eq_div_mul]

/-- The primary item box of version 1 has a 32-bit number, of which only the upper half is read. -/
theorem c68_pitm_version1 (flags item : Nat) (hf : flags < 2 ^ 24) (hi : item < 2 ^ 32) (rest : Bytes) :
    ∃ h, parseAtom pitmParse (fullBox (fcc 'p' 'i' 't' 'm') 1 flags (be 4 item) ++ rest) =
      .ok (((1, flags), item / 65536), h, rest) := by
  refine ⟨⟨16, typePitm, [], 0, 8⟩, ?_⟩
  have hp : ∀ r, pitmParse ⟨16, typePitm, [], 0, 8⟩ ⟨(be 1 1 ++ be 3 flags ++ be 2 (item / 65536)) ++ r, 8⟩ =
      .ok (((1, flags), item / 65536), ⟨r, 14⟩) := by
    have : ParsesAt (pitmParse ⟨16, typePitm, [], 0, 8⟩) 8 (be 1 1 ++ be 3 flags ++ be 2 (item / 65536))
        ((1, flags), item / 65536) := by
      unfold pitmParse
      refine ((parses_versionFlags (by decide) hf).at _).bind ?_
      refine ((parses_get16' (by omega)).at _).bind_nil ?_
      exact (parses_pure _).at _
    intro r
    rw [this r]
    simp
  have e : fullBox (fcc 'p' 'i' 't' 'm') 1 flags (be 4 item) ++ rest =
      (be 4 16 ++ be 4 typePitm) ++ ((be 1 1 ++ be 3 flags ++ be 2 (item / 65536)) ++ (be 2 item ++ rest)) := by
    have ht : typePitm = fcc 'p' 'i' 't' 'm' := by decide
    unfold fullBox box
    rw [be4_split item, ht]
    simp [List.append_assoc]
  rw [e]
  unfold parseAtom
  rw [parseHeader_small (by decide) (by decide) (by decide) (by decide) _ (by simp; omega)]
  simp only [hp]
  rw [if_neg (by decide)]
  have : 16 - (((be 4 16 ++ be 4 typePitm) ++ ((be 1 1 ++ be 3 flags ++ be 2 (item / 65536)) ++
      (be 2 item ++ rest))).length - (be 2 item ++ rest).length) = (be 2 item).length := by
    simp; omega
  rw [this, List.drop_left]

/-- The producer reference time of version 1 has a 64-bit media time; reading it runs into the assertion
that the whole box was read. -/
theorem c68_prft_version1 (flags track ntp media : Nat) (hf : flags < 2 ^ 24) (ht : track < 2 ^ 32)
    (hn : ntp < 2 ^ 64) (hm : media < 2 ^ 64) (rest : Bytes) :
    parseAtom Prft.parse (fullBox (fcc 'p' 'r' 'f' 't') 1 flags
      (be 4 track ++ (be 8 ntp ++ be 8 media)) ++ rest) = .ub := by
  have e8 : be 8 media = be 4 (media / 4294967296) ++ be 4 media := by
    simp [be, Nat.div_div_eq_div_mul]
  have e : fullBox (fcc 'p' 'r' 'f' 't') 1 flags (be 4 track ++ (be 8 ntp ++ be 8 media)) ++ rest =
      (be 4 32 ++ be 4 typePrft) ++ ((be 1 1 ++ be 3 flags) ++ (be 4 track ++ (be 8 ntp ++
        (be 4 (media / 4294967296) ++ (be 4 media ++ rest))))) := by
    have ht : typePrft = fcc 'p' 'r' 'f' 't' := by decide
    unfold fullBox box
    rw [e8, ht]
    simp [List.append_assoc]
  rw [e]
  unfold parseAtom
  rw [parseHeader_small (by decide) (by decide) (by decide) (by decide) _ (by simp; omega)]
  have hp : Prft.parse ⟨32, typePrft, [], 0, 8⟩ ⟨(be 1 1 ++ be 3 flags) ++ (be 4 track ++ (be 8 ntp ++
        (be 4 (media / 4294967296) ++ (be 4 media ++ rest)))), 8⟩ = .ub := by
    unfold Prft.parse
    rw [P.bind_apply, parses_versionFlags (by decide) hf _ _]
    simp only
    rw [P.bind_apply, parses_get32' ht _ _]
    simp only
    rw [P.bind_apply, parses_get64' hn _ _]
    simp only
    rw [P.bind_apply, parses_get32' (v := media / 4294967296) (by omega) _ _]
    simp [assertRead, P.bind_apply, P.bytesRead, P.bad]
  simp only [hp]

end Verif.Rows
