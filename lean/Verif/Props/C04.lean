import Verif.Lemmas.Codec

/-!
# C04 — a serializer never writes beyond the size the box declared
-/

namespace Verif

/-- A field emitted by a serializer. -/
inductive Field
  | int (bytes : Fin 5) (v : Nat)
  | raw (bs : Bytes)

/-- The macro that emits a field: `PUT8`, `PUT16`, `PUT24`, `PUT32`, `PUT64`, `PUTBYTES`. -/
def Field.put : Field → W
  | .int 0 v => put8 v
  | .int 1 v => put16 v
  | .int 2 v => put24 v
  | .int 3 v => put32 v
  | .int 4 v => put64 v
  | .raw bs => putBytes bs

/-- The bytes of a field. -/
def Field.bytes : Field → Bytes
  | .int 0 v => be 1 v
  | .int 1 v => be 2 v
  | .int 2 v => be 3 v
  | .int 3 v => be 4 v
  | .int 4 v => be 8 v
  | .raw bs => bs

/-- Specification: fields are stored while they fit; the first that does not fit ends with an I/O
error. Returns the bytes in the buffer at the end and whether there was an error. -/
def fill (size : Nat) : Bytes → List Field → Bytes × Bool
  | out, [] => (out, false)
  | out, f :: fs =>
    if out.length + f.bytes.length ≤ size then fill size (out ++ f.bytes) fs else (out, true)

/-- A serializer run that keeps the buffer also when it fails: the buffer after the run and the
error, if any. -/
def runFields : WS → List Field → WS × Option Err
  | s, [] => (s, none)
  | s, f :: fs => match f.put s with
    | .ok s' => runFields s' fs
    | .err e => (s, some e)
    | .ub => (s, some .internalErr)

theorem field_emits (f : Field) : Emits f.put f.bytes := by
  match f with
  | .int 0 v => exact emits_put8 v
  | .int 1 v => exact emits_put16 v
  | .int 2 v => exact emits_put24 v
  | .int 3 v => exact emits_put32 v
  | .int 4 v => exact emits_put64 v
  | .raw bs => exact emits_bytes bs

theorem runFields_eq (fs : List Field) : ∀ s : WS, s.out.length ≤ s.size →
    (∀ f ∈ fs, s.size + f.bytes.length < 4294967296) →
    runFields s fs = (⟨(fill s.size s.out fs).1, s.size⟩,
      if (fill s.size s.out fs).2 then some .ioErr else none) := by
  induction fs with
  | nil => intro s _ _; simp [runFields, fill]
  | cons f fs ih =>
    intro s hs hf
    have hff := hf f (by simp)
    have he := field_emits f s hs (by omega)
    unfold runFields fill
    by_cases hfit : s.out.length + f.bytes.length ≤ s.size
    · rw [if_pos hfit] at he
      rw [he]
      simp only [hfit, if_true]
      exact ih ⟨s.out ++ f.bytes, s.size⟩ (by simpa using hfit)
        (fun g hg => hf g (by simp [hg]))
    · rw [if_neg hfit] at he
      rw [he]
      simp [hfit]

/-- For every list of fields and every declared size, provided no field is so long that
`bytesWritten + len` overflows 32 bits: the buffer ends up holding the longest prefix of the
fields that fits, so never more than `size` bytes; an error is reported exactly when some field
did not fit and it is `MP4IOErr`. -/
theorem c04_never_beyond_size (fs : List Field) (size : Nat)
    (h : ∀ f ∈ fs, size + f.bytes.length < 4294967296) :
    (runFields ⟨[], size⟩ fs).1.out = (fill size [] fs).1 ∧
    (runFields ⟨[], size⟩ fs).2 = (if (fill size [] fs).2 then some .ioErr else none) ∧
    (runFields ⟨[], size⟩ fs).1.out.length ≤ size := by
  have e := runFields_eq fs ⟨[], size⟩ (by simp) h
  refine ⟨by rw [e], by rw [e], ?_⟩
  rw [e]
  have : ∀ (fs : List Field) (out : Bytes), out.length ≤ size → (fill size out fs).1.length ≤ size := by
    intro fs
    induction fs with
    | nil => intro out h; simpa [fill] using h
    | cons f fs ih =>
      intro out h
      unfold fill
      split
      · exact ih _ (by simpa using ‹_›)
      · simpa using h
  exact this fs [] (by simp)

/-- If all fields fit, the output is exactly their concatenation and there is no error. -/
theorem c04_all_fit (fs : List Field) (size : Nat) (h : (fs.flatMap Field.bytes).length ≤ size)
    (hs : size + size < 4294967296) :
    runFields ⟨[], size⟩ fs = (⟨fs.flatMap Field.bytes, size⟩, none) := by
  have hall : ∀ f ∈ fs, f.bytes.length ≤ (fs.flatMap Field.bytes).length := by
    intro f hf
    obtain ⟨a, b, rfl⟩ := List.append_of_mem hf
    simp only [List.flatMap_append, List.flatMap_cons, List.length_append]
    omega
  have e := runFields_eq fs ⟨[], size⟩ (by simp) (fun f hf => by have := hall f hf; simp; omega)
  rw [e]
  have : ∀ (fs : List Field) (out : Bytes), (out ++ fs.flatMap Field.bytes).length ≤ size →
      fill size out fs = (out ++ fs.flatMap Field.bytes, false) := by
    intro fs
    induction fs with
    | nil => intro out _; simp [fill]
    | cons f fs ih =>
      intro out h
      unfold fill
      simp only [List.flatMap_cons, List.length_append] at h
      rw [if_pos (by omega), ih _ (by simp only [List.length_append]; omega)]
      simp
  rw [this fs [] (by simpa using h)]
  simp

/-- The side condition is needed: the guard is computed in 32 bits, so a raw field of `2^32 - 8`
bytes after an 8-byte header passes it whatever the declared size, and the copy runs past the
buffer. -/
theorem c04_guard_wraps (bs : Bytes) (h : bs.length = 4294967288) :
    ∃ s, (W.seq (put64 0) (putBytes bs)) ⟨[], 8⟩ = .ok s ∧ s.size < s.out.length := by
  refine ⟨⟨be 8 0 ++ bs, 8⟩, ?_, by simp only [List.length_append, be_length]; omega⟩
  unfold W.seq
  rw [emits_put64 0 ⟨[], 8⟩ (by simp) (by simp)]
  simp only [List.length_nil, be_length, Nat.zero_add, Nat.le_refl, if_true, Res.bind,
    List.nil_append, putBytes, putRaw, h]
  rw [if_neg (by omega)]

example : runFields ⟨[], 7⟩ [.int 1 0x1234, .raw [9, 9], .int 3 5] =
    (⟨[0x12, 0x34, 9, 9], 7⟩, some .ioErr) := by decide

end Verif
