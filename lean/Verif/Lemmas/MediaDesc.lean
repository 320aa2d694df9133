import Verif.Spec.MediaDesc
import Verif.Lemmas.SampleDesc
import Verif.Lemmas.Descr

/-!
# Lemmas on the descriptions of a media
-/

namespace Verif.Mds

open Verif.Ent Verif.Sde
open Verif.Descr hiding audio audio_ok insert

variable {α : Type} {C : Class α} {t : Table α} {l : List (Item α)} {i : Item α}

theorem Item.Ok.opened (h : i.Ok C) : openEntry (boxes C) .generic i.bytes = .ok i.entry := by
  cases i with
  | sample s => exact h.1.opened h.2 _
  | raw ty r d data => exact RawOk.opened h

theorem Item.Ok.store (h : i.Ok C) : store (boxes C) i.entry = .ok i.bytes := by
  cases i with
  | sample s => exact h.1.store
  | raw ty r d data =>
    have h : RawOk ty r d data := h
    have := raw_store (K := boxes C) (ks := []) h.head h.good (fun k hk => nomatch hk) (by
      have := h.size
      simpa [wire] using this)
    simpa [wire, vals, Item.entry, Item.bytes] using this

theorem Item.entry_dref : anyDref i.entry = i.dref := by
  cases i with
  | sample s => cases s with | mk a b c k e => cases k <;> rfl
  | raw ty r d data => rfl

theorem Holds.entry (h : Holds C t l) {n : Nat} (hn : l[n]? = some i) : t.entry (n + 1) = .ok i.entry := by
  have hlt : n < l.length := (List.getElem?_eq_some_iff.mp hn).1
  have hl : t.stsd.entries.length = l.length := by rw [h.entries, List.length_map]
  have hg : t.stsd.entries[n]? = some i.entry := by rw [h.entries, List.getElem?_map, hn]; rfl
  unfold Table.entry Stsd.getEntry
  rw [if_neg (by omega), if_neg (by omega), if_neg (by omega), Nat.add_sub_cancel, hg]

theorem Holds.outside (h : Holds C t l) {n : Nat} (hn : n = 0 ∨ n > l.length) : t.entry n = .err .badParam := by
  have hl : t.stsd.entries.length = l.length := by rw [h.entries, List.length_map]
  unfold Table.entry
  rcases hn with hn | hn
  · rw [if_pos hn]
  · rw [if_neg (by omega), if_pos (by omega)]

theorem typeEsds_eq : typeEsds = fcc 'e' 's' 'd' 's' := by decide

theorem findEsd_here {e : Es} (ho : i.Ok C) (he : i.Es e) : findEsd (anyExt i.entry) = .ok (some e) := by
  obtain ⟨s, pre, post, v, f, rfl, hk, hp, _⟩ := he
  have hf : Family (boxes C) pre := fun k hm => ho.1.family k (by rw [hk]; simp [hm])
  have e1 : vals (pre ++ esdsKid v f e :: post) = vals pre ++ .esds v f (some e) :: vals post := by simp [vals, esdsKid]
  unfold findEsd
  rw [show anyExt (Item.sample s).entry = vals s.kids from entry_ext s, hk, e1,
    findAt_here (t := typeEsds) (by rw [typeEsds_eq]; exact vals_ne hf hp) rfl]
  simp

theorem findEsd_none (ho : i.Ok C) (he : i.NoEs) : findEsd (anyExt i.entry) = .err .invalidMedia := by
  cases i with
  | sample s =>
    unfold findEsd
    rw [show anyExt (Item.sample s).entry = vals s.kids from entry_ext s,
      findAt_none (by rw [typeEsds_eq]; exact vals_ne ho.1.family he)]
  | raw ty r d data => rfl

theorem Holds.needEs (h : Holds C t l) {n : Nat} (hn : l[n]? = some i) {e : Es} (he : i.Es e) :
    needEs t (n + 1) = .ok e := by
  unfold Mds.needEs
  rw [h.entry hn, Res.ok_bind, findEsd_here (h.ok i (List.mem_of_getElem? hn)) he, Res.ok_bind]

theorem decPayload_le {e : Es} {d : Dec} (h : e.decoder = some d) : (decPayload d).length ≤ (esPayload e).length := by
  have hb : (decBytes d).length = 5 + (decPayload d).length := descr_length (by omega) _ _
  have hm : Child.dec d ∈ esChildren e := by simp [esChildren, h]
  have h1 := child_le hm
  simp only [childBytes] at h1
  omega

/-- The bytes of the length are skipped. -/
theorem skip_cont (size : Nat) (r : Bytes) (k : Nat) : ∀ (n c : Nat), c + k < size →
    skipLength size (contBytes k n ++ r) c = skipLength size r (c + k) := by
  induction k generalizing r with
  | zero => intro n c h; rfl
  | succ k ih =>
    intro n c h
    have hb : (UInt8.ofNat (128 + n % 128)).toNat &&& 0x80 ≠ 0 := by
      rw [toNat_small (by omega)]
      exact (cont_bits (n % 128) (by omega)).1
    rw [contBytes, List.append_assoc, ih _ _ _ (by omega)]
    show skipLength size (_ :: r) (c + k) = _
    rw [skipLength, if_pos hb, if_neg (by omega), Nat.add_assoc]

theorem info_bytes {d : Default} (h : d.data.length < 268435456) : infoBytes d = .ok d.data := by
  have hr := run_plain (d := d) (by omega)
  have hl := plainBytes_length d
  have hp : plainBytes d = be 1 d.tag ++ (lengthBytes 4 d.data.length ++ d.data) := rfl
  have h1 : (be 1 d.tag).length = 1 := be_length _ _
  have h5 : (be 1 d.tag ++ lengthBytes 4 d.data.length).length = 5 := by
    rw [List.length_append, h1, lengthBytes_length (by omega)]
  unfold infoBytes
  rw [if_neg (by omega), hr.1, Res.ok_bind]
  have hs : skipLength (defaultSize d) ((plainBytes d).drop 1) 1 = .ok 5 := by
    rw [hp, List.drop_left' h1, lengthBytes, List.append_assoc, skip_cont _ _ _ _ _ (by omega)]
    show skipLength _ (_ :: d.data) 4 = _
    have hb : (UInt8.ofNat (d.data.length % 128)).toNat &&& 0x80 = 0 := by
      rw [toNat_small (by omega)]
      exact (last_bits _ (by omega)).1
    rw [skipLength, if_neg (by rw [hb]; simp)]
  rw [hs, Res.ok_bind, hp, ← List.append_assoc, List.drop_left' h5, List.take_of_length_le (by omega)]

end Verif.Mds
