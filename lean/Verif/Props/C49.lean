import Verif.Props.C30

/-!
# C49: an elementary stream descriptor survives being written and parsed
-/

namespace Verif.Descr

/-! ## Layout (ISO/IEC 14496-1, 7.2.6.5, 7.2.6.6, 7.3.2.3) -/

/-- A descriptor with four length bytes. -/
def plainBytes (d : Default) : Bytes := descr 4 d.tag d.data

def optBytes {α : Type} (f : α → Bytes) : Option α → Bytes
  | none => []
  | some a => f a

/-- Payload of the decoder configuration. -/
def decPayload (d : Dec) : Bytes :=
  be 1 d.objectType ++ (be 1 (d.streamType * 4 + (if d.upstream then 2 else 0) + 1) ++ (be 3 d.bufferSize ++
    (be 4 d.maxBitrate ++ (be 4 d.avgBitrate ++ optBytes plainBytes d.info))))

def decBytes (d : Dec) : Bytes := descr 4 4 (decPayload d)

/-- Eight flags, the first in the top bit. -/
def flagsByte (c : Sl) : Nat :=
  c.auStart.toNat * 128 + c.auEnd.toNat * 64 + c.randomAccess.toNat * 32 + c.randomAccessOnly.toNat * 16 +
  c.padding.toNat * 8 + c.timestamps.toNat * 4 + c.idle.toNat * 2 + c.durations.toNat

/-- Payload of the SL configuration. -/
def slPayload (c : Sl) : Bytes :=
  be 1 c.predefined ++
  ((if c.predefined = 0 then
      be 1 (flagsByte c) ++ (be 4 c.tsResolution ++ (be 4 c.ocrResolution ++ (be 1 c.tsLength ++ (be 1 c.ocrLength ++
      (be 1 c.auLength ++ (be 1 c.bitrateLength ++
        be 2 (c.degradationLength * 4096 + c.auSeqLength * 128 + c.packetSeqLength * 4 + 3)))))))
    else []) ++
   (if c.durations then be 4 c.timeScale ++ (be 2 c.auDuration ++ be 2 c.cuDuration) else []))

def slBytes (c : Sl) : Bytes := descr 4 6 (slPayload c)

/-- A pointer to an IPMP descriptor: one byte, or the byte 255 and two 16-bit numbers. -/
def ptrPayload (p : Ptr) : Bytes := be 1 p.id ++ (if p.id = 255 then be 2 p.tool ++ be 2 p.es else [])

def ptrBytes (p : Ptr) : Bytes := descr 4 10 (ptrPayload p)

/-- The fields before the descriptors inside. -/
def esHead (e : Es) : Bytes :=
  be 2 e.esid ++
  (be 1 ((if e.dependsOn = 0 then 0 else 128) + (if e.url = [] then 0 else 64) + (if e.ocr = 0 then 0 else 32) +
     e.priority) ++
   ((if e.dependsOn = 0 then [] else be 2 e.dependsOn) ++
    ((if e.url = [] then [] else be 1 e.url.length ++ e.url) ++ (if e.ocr = 0 then [] else be 2 e.ocr))))

/-- The descriptors inside, in the order in which they are written. -/
def esChildren (e : Es) : List Child :=
  e.decoder.toList.map .dec ++ (e.sl.toList.map .sl ++ (e.ipi.toList.map .plain ++ (e.ipiData.map .plain ++
    (e.ptrs.map .ptr ++ (e.lang.map .plain ++ (e.qos.toList.map .plain ++ e.ext.map .plain))))))

def childBytes : Child → Bytes
  | .dec d => decBytes d
  | .sl c => slBytes c
  | .ptr p => ptrBytes p
  | .plain d => plainBytes d

def esPayload (e : Es) : Bytes := esHead e ++ (esChildren e).flatMap childBytes

def esBytes (e : Es) : Bytes := descr 4 3 (esPayload e)

/-! ## What can be represented -/

/-- Of the default class, with an 8-bit tag. -/
def PlainOk (d : Default) : Prop := d.tag < 256 ∧ ownClass d.tag = false

structure DecOk (d : Dec) : Prop where
  objectType : d.objectType < 2 ^ 8
  streamType : d.streamType < 2 ^ 6
  bufferSize : d.bufferSize < 2 ^ 24
  rates : d.maxBitrate < 2 ^ 32 ∧ d.avgBitrate < 2 ^ 32
  info : ∀ i, d.info = some i → i.tag = 5

/-- Either the predefined configuration for files, or an explicit one with time stamps. -/
structure SlOk (c : Sl) : Prop where
  timestamps : c.timestamps = true
  kind : c.predefined = 0 ∨ c = { Sl.zero with predefined := 2, timestamps := true }
  words : c.tsResolution < 2 ^ 32 ∧ c.ocrResolution < 2 ^ 32 ∧ c.timeScale < 2 ^ 32
  halves : c.auDuration < 2 ^ 16 ∧ c.cuDuration < 2 ^ 16
  lengths : c.tsLength < 2 ^ 8 ∧ c.ocrLength < 2 ^ 8 ∧ c.auLength < 2 ^ 8 ∧ c.bitrateLength < 2 ^ 8
  bits : c.degradationLength < 2 ^ 4 ∧ c.auSeqLength < 2 ^ 5 ∧ c.packetSeqLength < 2 ^ 5
  durations : c.durations = false → c.timeScale = 0 ∧ c.auDuration = 0 ∧ c.cuDuration = 0

/-- The two numbers are there only after 255. -/
structure PtrOk (p : Ptr) : Prop where
  id : p.id < 2 ^ 8
  numbers : p.tool < 2 ^ 16 ∧ p.es < 2 ^ 16
  short : p.id ≠ 255 → p.tool = 0 ∧ p.es = 0

structure EsOk (e : Es) : Prop where
  head : e.esid < 2 ^ 16 ∧ e.priority < 2 ^ 5 ∧ e.dependsOn < 2 ^ 16 ∧ e.url.length < 2 ^ 8 ∧ e.ocr < 2 ^ 16
  decoder : ∀ d, e.decoder = some d → DecOk d
  sl : ∀ c, e.sl = some c → SlOk c
  ipi : ∀ d, e.ipi = some d → d.tag = 0x09
  qos : ∀ d, e.qos = some d → d.tag = 0x0C
  ipiData : ∀ d ∈ e.ipiData, d.tag = 0x07 ∨ d.tag = 0x08
  ptrs : ∀ p ∈ e.ptrs, PtrOk p
  lang : ∀ d ∈ e.lang, d.tag = 0x43
  ext : ∀ d ∈ e.ext, PlainOk d ∧ d.tag ≠ 0x07 ∧ d.tag ≠ 0x08 ∧ d.tag ≠ 0x09 ∧ d.tag ≠ 0x0C ∧ d.tag ≠ 0x43

/-! ## Writing -/

theorem plainBytes_length (d : Default) : (plainBytes d).length = 5 + d.data.length := descr_length (by omega) _ _

theorem run_plain {d : Default} (h : d.data.length < 2 ^ 28) :
    runW (defaultSize d) (putDefault d) = .ok (plainBytes d) ∧ (plainBytes d).length = defaultSize d := by
  have e : defaultSize d = 5 + d.data.length := by unfold defaultSize; omega
  have hl := plainBytes_length d
  refine ⟨?_, by omega⟩
  unfold putDefault
  rw [e]
  exact (emits_descr h (emits_bytes _)).run_ok hl (by omega)

theorem emits_opt {α : Type} {size : α → Nat} {w : α → W} {f : α → Bytes} {o : Option α}
    (h : ∀ a, o = some a → runW (size a) (w a) = .ok (f a) ∧ (f a).length = size a) :
    Emits (nestedOpt size w o) (optBytes f o) := by
  cases o with
  | none => exact emits_skip
  | some a => exact emits_nested (h a rfl).1 (h a rfl).2

theorem sizeOpt_eq {α : Type} {size : α → Nat} {f : α → Bytes} {o : Option α}
    (h : ∀ a, o = some a → (f a).length = size a) : sizeOpt size o = (optBytes f o).length := by
  cases o with
  | none => rfl
  | some a => exact (h a rfl).symm

theorem descr_lt {k tag : Nat} {p : Bytes} : p.length ≤ (descr k tag p).length := by
  simp only [descr, List.length_append]; omega

theorem or_flags (a : Nat) (b : Bool) (ha : a < 64) :
    (w8(a <<< 2) ||| (if b then 2 else 0)) ||| 1 = a * 4 + (if b then 2 else 0) + 1 := by
  have h : ∀ a < 64, ∀ b : Bool, (w8(a <<< 2) ||| (if b then 2 else 0)) ||| 1 = a * 4 + (if b then 2 else 0) + 1 := by
    decide
  exact h a ha b

theorem run_dec {d : Dec} (hd : DecOk d) (h : (decPayload d).length < 2 ^ 28) :
    runW (decSize d) (putDec d) = .ok (decBytes d) ∧ (decBytes d).length = decSize d := by
  have hi : ∀ i, d.info = some i → runW (defaultSize i) (putDefault i) = .ok (plainBytes i) ∧
      (plainBytes i).length = defaultSize i := by
    intro i hi
    apply run_plain
    simp only [decPayload, hi, optBytes, List.length_append, be_length, plainBytes_length] at h
    omega
  have hp : (decPayload d).length = 13 + (optBytes plainBytes d.info).length := by
    simp only [decPayload, List.length_append, be_length]; omega
  have e : decSize d = 5 + (decPayload d).length := by
    unfold decSize
    cases hc : d.info with
    | none => rw [hp, hc]; rfl
    | some i =>
      rw [hc] at hp
      have := (hi i hc).2
      simp only [optBytes] at hp
      simp only
      omega
  have hl : (decBytes d).length = decSize d := by unfold decBytes; rw [descr_length (by omega), e]
  refine ⟨?_, hl⟩
  refine Emits.run_ok ?_ hl (by omega)
  unfold putDec
  rw [e]
  refine emits_descr h ?_
  rw [or_flags _ _ hd.streamType]
  exact (emits_put8 _).seq ((emits_put8 _).seq ((emits_put24 _).seq ((emits_put32 _).seq ((emits_put32 _).seq
    (emits_opt hi)))))

theorem or_sl_flags (c : Sl) :
    flag c.auStart 7 ||| flag c.auEnd 6 ||| flag c.randomAccess 5 ||| flag c.randomAccessOnly 4 |||
      flag c.padding 3 ||| flag c.timestamps 2 ||| flag c.idle 1 ||| flag c.durations 0 = flagsByte c := by
  have h : ∀ a b c d e f g h : Bool, flag a 7 ||| flag b 6 ||| flag c 5 ||| flag d 4 ||| flag e 3 ||| flag f 2 |||
      flag g 1 ||| flag h 0 = a.toNat * 128 + b.toNat * 64 + c.toNat * 32 + d.toNat * 16 + e.toNat * 8 +
      f.toNat * 4 + g.toNat * 2 + h.toNat := by decide
  exact h ..

theorem or_lengths {a b c : Nat} (ha : a < 16) (hb : b < 32) (hc : c < 32) :
    ((w32(a <<< 12) ||| w32(b <<< 7)) ||| w32(c <<< 2)) ||| 3 = a * 4096 + b * 128 + c * 4 + 3 := by
  have e1 : w32(a <<< 12) = a <<< 12 := by rw [Nat.shiftLeft_eq]; omega
  have e2 : w32(b <<< 7) = b * 128 := by rw [Nat.shiftLeft_eq]; omega
  have e3 : w32(c <<< 2) = c * 4 := by rw [Nat.shiftLeft_eq]; omega
  have e4 : a * 2 ^ 12 + b * 128 = (a * 32 + b) <<< 7 := by rw [Nat.shiftLeft_eq]; omega
  have e5 : (a * 32 + b) * 2 ^ 7 + c * 4 = ((a * 32 + b) * 32 + c) <<< 2 := by rw [Nat.shiftLeft_eq]; omega
  rw [e1, e2, e3, or_shift_eq (by omega), e4, or_shift_eq (by omega), e5, or_shift_eq (by omega)]
  omega

theorem slPayload_length (c : Sl) : (slPayload c).length =
    1 + (if c.predefined = 0 then 15 else 0) + (if c.durations then 8 else 0) := by
  unfold slPayload
  split <;> split <;> simp only [List.length_append, be_length, List.length_nil]

theorem run_sl {c : Sl} (hc : SlOk c) :
    runW (slSize c) (putSl c) = .ok (slBytes c) ∧ (slBytes c).length = slSize c := by
  have hp := slPayload_length c
  have e : slSize c = 5 + (slPayload c).length := by
    unfold slSize
    rw [hc.timestamps, if_pos rfl, hp]
    split <;> split <;> rfl
  have hb : (slPayload c).length < 25 := by rw [hp]; split <;> split <;> omega
  have hl : (slBytes c).length = slSize c := by unfold slBytes; rw [descr_length (by omega), e]
  refine ⟨?_, hl⟩
  refine Emits.run_ok ?_ hl (by omega)
  unfold putSl
  rw [e]
  refine emits_descr (by omega) ?_
  have ht : Emits (if c.timestamps = true then W.skip else W.fail .notImplemented) [] := by
    rw [hc.timestamps, if_pos rfl]; exact emits_skip
  unfold slPayload
  refine (emits_put8 _).seq (Emits.seq ?_ ?_)
  · by_cases hz : c.predefined = 0
    · rw [if_pos hz, if_pos hz, or_sl_flags, or_lengths hc.bits.1 hc.bits.2.1 hc.bits.2.2]
      exact (emits_put8 _).seq ((emits_put32 _).seq ((emits_put32 _).seq ((emits_put8 _).seq ((emits_put8 _).seq
        ((emits_put8 _).seq ((emits_put8 _).seq (emits_put16 _)))))))
    · rw [if_neg hz, if_neg hz]; exact emits_skip
  · by_cases hz : c.durations = true
    · rw [if_pos hz, if_pos hz]
      have := ((emits_put32 c.timeScale).seq ((emits_put16 c.auDuration).seq (emits_put16 c.cuDuration))).seq ht
      rwa [List.append_nil] at this
    · rw [if_neg hz, if_neg hz]
      have := emits_skip.seq ht
      rwa [List.append_nil] at this

theorem emits_list {ds : List Default} (h : ∀ d ∈ ds, d.data.length < 2 ^ 28) :
    Emits (putList ds) (ds.flatMap plainBytes) :=
  Emits.each ds fun d hd => emits_nested (run_plain (h d hd)).1 (run_plain (h d hd)).2

theorem sum_list {ds : List Default} (h : ∀ d ∈ ds, d.data.length < 2 ^ 28) :
    (ds.map defaultSize).sum = (ds.flatMap plainBytes).length := by
  induction ds with
  | nil => rfl
  | cons d ds ih =>
    rw [List.map_cons, List.sum_cons, List.flatMap_cons, List.length_append, ih fun x hx => h x (by simp [hx]),
      (run_plain (h d (by simp))).2]

theorem ptrPayload_length (p : Ptr) : (ptrPayload p).length = 1 + (if p.id = 255 then 4 else 0) := by
  unfold ptrPayload
  split <;> simp only [List.length_append, be_length, List.length_nil]

theorem emitsFull_check : EmitsFull checkFull [] := by
  intro s h _
  simp only [List.length_nil, Nat.add_zero] at h
  simp [checkFull, h]

theorem run_ptr (p : Ptr) : runW (ptrSize p) (putPtr p) = .ok (ptrBytes p) ∧ (ptrBytes p).length = ptrSize p := by
  have hp := ptrPayload_length p
  have e : ptrSize p = 5 + (ptrPayload p).length := by unfold ptrSize; rw [hp]; omega
  have hb : (ptrPayload p).length < 6 := by rw [hp]; split <;> omega
  have hl : (ptrBytes p).length = ptrSize p := by unfold ptrBytes; rw [descr_length (by omega), e]
  refine ⟨?_, hl⟩
  refine EmitsFull.runW ?_ hl (by omega)
  unfold putPtr ptrBytes
  rw [e]
  have h2 : Emits (if p.id = 0xFF then put16 p.tool ;; put16 p.es else W.skip)
      (if p.id = 255 then be 2 p.tool ++ be 2 p.es else []) := by
    split
    · exact (emits_put16 _).seq (emits_put16 _)
    · exact emits_skip
  have h3 := (emits_header 10 (ptrPayload p).length (by omega)).then ((emits_put8 p.id).then (h2.then emitsFull_check))
  rw [Nat.mod_eq_of_lt (by omega), List.append_assoc, List.append_nil] at h3
  exact h3

theorem emits_ptrs (ps : List Ptr) : Emits (putPtrs ps) (ps.flatMap ptrBytes) :=
  Emits.each ps fun p _ => emits_nested (run_ptr p).1 (run_ptr p).2

theorem sum_ptrs (ps : List Ptr) : (ps.map ptrSize).sum = (ps.flatMap ptrBytes).length := by
  induction ps with
  | nil => rfl
  | cons p ps ih => rw [List.map_cons, List.sum_cons, List.flatMap_cons, List.length_append, ih, (run_ptr p).2]

theorem children_flat (e : Es) : (esChildren e).flatMap childBytes =
    optBytes decBytes e.decoder ++ (optBytes slBytes e.sl ++ (optBytes plainBytes e.ipi ++
      (e.ipiData.flatMap plainBytes ++ (e.ptrs.flatMap ptrBytes ++ (e.lang.flatMap plainBytes ++
        (optBytes plainBytes e.qos ++ e.ext.flatMap plainBytes)))))) := by
  have hl : ∀ l : List Default, (l.map Child.plain).flatMap childBytes = l.flatMap plainBytes := by
    intro l
    rw [List.flatMap_map]
    rfl
  have hptr : (e.ptrs.map Child.ptr).flatMap childBytes = e.ptrs.flatMap ptrBytes := by
    rw [List.flatMap_map]
    rfl
  have hp : ∀ o : Option Default, o.toList.flatMap plainBytes = optBytes plainBytes o := by
    intro o
    cases o with
    | none => rfl
    | some a => simp [optBytes]
  have ho : ∀ {α : Type} (f : α → Bytes) (g : α → Child) (_ : ∀ a, childBytes (g a) = f a) (o : Option α),
      (o.toList.map g).flatMap childBytes = optBytes f o := by
    intro α f g hg o
    cases o with
    | none => rfl
    | some a => simp [optBytes, hg]
  simp only [esChildren, List.flatMap_append, hl, ho decBytes Child.dec (fun _ => rfl),
    ho slBytes Child.sl (fun _ => rfl), hp, hptr]

theorem mem_flat_le {α : Type} {f : α → Bytes} {l : List α} {a : α} (h : a ∈ l) :
    (f a).length ≤ (l.flatMap f).length := by
  induction l with
  | nil => cases h
  | cons x l ih =>
    rw [List.flatMap_cons, List.length_append]
    rcases List.mem_cons.1 h with rfl | h
    · omega
    · have := ih h; omega

theorem child_le {e : Es} {c : Child} (h : c ∈ esChildren e) : (childBytes c).length ≤ (esPayload e).length := by
  have := mem_flat_le (f := childBytes) h
  rw [esPayload, List.length_append]
  omega

theorem es_head_flags (e : Es) (h : e.priority < 32) :
    (w8(e.priority) ||| (if e.ocr ≠ 0 then 0x20 else 0) ||| (if e.url.length ≠ 0 then 0x40 else 0) |||
      (if e.dependsOn ≠ 0 then 0x80 else 0)) =
    (if e.dependsOn = 0 then 0 else 128) + (if e.url = [] then 0 else 64) + (if e.ocr = 0 then 0 else 32) +
      e.priority := by
  have hf : ∀ p < 32, ∀ a b c : Bool, (w8(p) ||| (if a then 0x20 else 0) ||| (if b then 0x40 else 0) |||
      (if c then 0x80 else 0)) = (if c then 128 else 0) + (if b then 64 else 0) + (if a then 32 else 0) + p := by
    decide
  have := hf _ h (decide (e.ocr ≠ 0)) (decide (e.url.length ≠ 0)) (decide (e.dependsOn ≠ 0))
  simp only [decide_eq_true_eq] at this
  rw [this]
  simp only [ne_eq, List.length_eq_zero_iff, ite_not]

theorem esHead_length (e : Es) : (esHead e).length = 3 + (if e.dependsOn ≠ 0 then 2 else 0) +
    (if e.ocr ≠ 0 then 2 else 0) + (if e.url.length ≠ 0 then e.url.length + 1 else 0) := by
  unfold esHead
  simp only [ne_eq, List.length_eq_zero_iff, ite_not]
  split <;> split <;> split <;> simp only [List.length_append, be_length, List.length_nil] <;> omega

theorem run_es {e : Es} (he : EsOk e) (h : (esPayload e).length < 2 ^ 28) :
    runW (esSize e) (putEs e) = .ok (esBytes e) ∧ (esBytes e).length = esSize e := by
  have hplain : ∀ d, Child.plain d ∈ esChildren e → d.data.length < 2 ^ 28 := by
    intro d hd
    have := child_le hd
    simp only [childBytes, plainBytes_length] at this
    omega
  have hdec : ∀ d, e.decoder = some d → runW (decSize d) (putDec d) = .ok (decBytes d) ∧
      (decBytes d).length = decSize d := by
    intro d hd
    apply run_dec (he.decoder d hd)
    have hm : Child.dec d ∈ esChildren e := by simp [esChildren, hd]
    have h1 := child_le hm
    have h2 : (decPayload d).length ≤ (decBytes d).length := descr_lt
    simp only [childBytes] at h1
    omega
  have hsl : ∀ c, e.sl = some c → runW (slSize c) (putSl c) = .ok (slBytes c) ∧ (slBytes c).length = slSize c :=
    fun c hc => run_sl (he.sl c hc)
  have hipi : ∀ d, e.ipi = some d → runW (defaultSize d) (putDefault d) = .ok (plainBytes d) ∧
      (plainBytes d).length = defaultSize d :=
    fun d hd => run_plain (hplain d (by simp [esChildren, hd]))
  have hqos : ∀ d, e.qos = some d → runW (defaultSize d) (putDefault d) = .ok (plainBytes d) ∧
      (plainBytes d).length = defaultSize d :=
    fun d hd => run_plain (hplain d (by simp [esChildren, hd]))
  have hd1 : ∀ d ∈ e.ipiData, d.data.length < 2 ^ 28 := fun d hd => hplain d (by simp [esChildren, hd])
  have hd2 : ∀ d ∈ e.lang, d.data.length < 2 ^ 28 := fun d hd => hplain d (by simp [esChildren, hd])
  have hd3 : ∀ d ∈ e.ext, d.data.length < 2 ^ 28 := fun d hd => hplain d (by simp [esChildren, hd])
  have hsz : esSize e = 5 + (esPayload e).length := by
    have hpl : (esPayload e).length = (esHead e).length + ((esChildren e).flatMap childBytes).length := by
      rw [esPayload, List.length_append]
    rw [esHead_length, children_flat] at hpl
    simp only [List.length_append] at hpl
    unfold esSize
    rw [sizeOpt_eq (f := decBytes) (fun a ha => (hdec a ha).2), sizeOpt_eq (f := slBytes) (fun a ha => (hsl a ha).2),
      sizeOpt_eq (f := plainBytes) (fun a ha => (hipi a ha).2), sizeOpt_eq (f := plainBytes) (fun a ha => (hqos a ha).2),
      sum_list hd1, sum_list hd2, sum_list hd3, sum_ptrs]
    generalize (if e.url.length ≠ 0 then e.url.length + 1 else 0) = n1 at *
    generalize (if e.ocr ≠ 0 then 2 else 0) = n2 at *
    generalize (if e.dependsOn ≠ 0 then 2 else 0) = n3 at *
    omega
  have hl : (esBytes e).length = esSize e := by unfold esBytes; rw [descr_length (by omega), hsz]
  refine ⟨?_, hl⟩
  refine Emits.run_ok ?_ hl (by omega)
  unfold putEs
  rw [hsz, es_head_flags e he.head.2.1]
  refine emits_descr h ?_
  unfold esPayload esHead
  rw [children_flat]
  simp only [List.append_assoc]
  refine (emits_put16 _).seq ((emits_put8 _).seq (Emits.seq ?_ (Emits.seq ?_ (Emits.seq ?_ ((emits_opt hdec).seq
    ((emits_opt hsl).seq ((emits_opt hipi).seq ((emits_list hd1).seq ((emits_ptrs _).seq ((emits_list hd2).seq
    ((emits_opt hqos).seq (emits_list hd3))))))))))))
  · by_cases hz : e.dependsOn = 0
    · rw [if_pos hz, if_neg (by simp [hz])]; exact emits_skip
    · rw [if_neg hz, if_pos hz]; exact emits_put16 _
  · by_cases hz : e.url = []
    · rw [if_pos hz, if_neg (by simp [hz])]; exact emits_skip
    · rw [if_neg hz, if_pos (by simpa using hz)]; exact (emits_put8 _).seq (emits_bytes _)
  · by_cases hz : e.ocr = 0
    · rw [if_pos hz, if_neg (by simp [hz])]; exact emits_skip
    · rw [if_neg hz, if_pos hz]; exact emits_put16 _

/-! ## Reading -/

theorem parses_plain {d : Default} (hd : PlainOk d) (h : d.data.length < 2 ^ 28) :
    Parses (getDesc getPlain) (plainBytes d) d := by
  intro r k
  have := (c30_written d h hd.1 hd.2).2
  rw [plainBytes, this.2, this.1]

theorem dec_flags (a : Nat) (b : Bool) (ha : a < 64) :
    ((a * 4 + (if b then 2 else 0) + 1) % 256) >>> 2 = a ∧
    decide ((a * 4 + (if b then 2 else 0) + 1) % 256 &&& 2 ≠ 0) = b := by
  have h : ∀ a < 64, ∀ b : Bool, ((a * 4 + (if b then 2 else 0) + 1) % 256) >>> 2 = a ∧
    decide ((a * 4 + (if b then 2 else 0) + 1) % 256 &&& 2 ≠ 0) = b := by decide
  exact h a ha b

theorem be3_split (v : Nat) : be 3 v = be 2 (v / 256) ++ be 1 v := by
  rw [be3, be2, be1]
  simp only [List.cons_append, List.nil_append, Nat.div_div_eq_div_mul]

theorem parsesAt_dec {d : Dec} (hd : DecOk d) (h : (decPayload d).length < 2 ^ 28) :
    ParsesAt (getDec (5 + (decPayload d).length)) 5 (decPayload d) d := by
  have hlen : (decPayload d).length = 13 + (optBytes plainBytes d.info).length := by
    simp only [decPayload, List.length_append, be_length]; omega
  have e1 : decPayload d = be 1 d.objectType ++ (be 1 (d.streamType * 4 + (if d.upstream then 2 else 0) + 1) ++
      (be 2 (d.bufferSize / 256) ++ (be 1 d.bufferSize ++ (be 4 d.maxBitrate ++ (be 4 d.avgBitrate ++
        optBytes plainBytes d.info))))) := by
    rw [decPayload, be3_split, List.append_assoc]
  rw [hlen] at h ⊢
  rw [e1]
  unfold getDec
  refine ((parses_get8' hd.objectType).at _).bind (((parses_get8 _).at _).bind (((parses_get16 _).at _).bind
    (((parses_get8 _).at _).bind (((parses_get32' hd.rates.1).at _).bind (((parses_get32' hd.rates.2).at _).bind
      (parsesAt_bytesRead ?_))))))
  have hf := dec_flags d.streamType d.upstream hd.streamType
  have hbuf : w32((d.bufferSize / 256 % 65536) <<< 8) ||| d.bufferSize % 256 = d.bufferSize := by
    have := hd.bufferSize
    have e : w32((d.bufferSize / 256 % 65536) <<< 8) = (d.bufferSize / 256) <<< 8 := by
      rw [Nat.shiftLeft_eq, Nat.shiftLeft_eq]; omega
    rw [e, or_shift_eq (by omega)]
    omega
  simp only [be_length, hf.1, hf.2, hbuf]
  cases hi : d.info with
  | none =>
    rw [if_neg (by simp [optBytes])]
    refine ParsesAt.of_eq ((parses_pure _).at _) rfl ?_
    rw [← hi]
  | some i =>
    have ht := hd.info i hi
    simp only [hi, optBytes, plainBytes_length] at h
    rw [if_pos (by simp only [optBytes, plainBytes_length]; omega)]
    refine ParsesAt.of_eq (((parses_plain (d := i) ⟨by omega, by rw [ht]; decide⟩ (by omega)).map _).at _) rfl ?_
    rw [if_pos ht, ← hi]

theorem sl_flags (c : Sl) : flagsByte c < 256 ∧
    decide (flagsByte c &&& 128 ≠ 0) = c.auStart ∧ decide (flagsByte c &&& 64 ≠ 0) = c.auEnd ∧
    decide (flagsByte c &&& 32 ≠ 0) = c.randomAccess ∧ decide (flagsByte c &&& 16 ≠ 0) = c.randomAccessOnly ∧
    decide (flagsByte c &&& 8 ≠ 0) = c.padding ∧ decide (flagsByte c &&& 4 ≠ 0) = c.timestamps ∧
    decide (flagsByte c &&& 2 ≠ 0) = c.idle ∧ decide (flagsByte c &&& 1 ≠ 0) = c.durations := by
  unfold flagsByte
  generalize c.auStart = a1
  generalize c.auEnd = a2
  generalize c.randomAccess = a3
  generalize c.randomAccessOnly = a4
  generalize c.padding = a5
  generalize c.timestamps = a6
  generalize c.idle = a7
  generalize c.durations = a8
  revert a1 a2 a3 a4 a5 a6 a7 a8
  decide

theorem parses_sl_head {c : Sl} (hc : SlOk c) (hz : c.predefined = 0) :
    Parses (getSlHead 0) (be 1 (flagsByte c) ++ (be 4 c.tsResolution ++ (be 4 c.ocrResolution ++ (be 1 c.tsLength ++
      (be 1 c.ocrLength ++ (be 1 c.auLength ++ (be 1 c.bitrateLength ++
        be 2 (c.degradationLength * 4096 + c.auSeqLength * 128 + c.packetSeqLength * 4 + 3))))))))
      { c with timeScale := 0, auDuration := 0, cuDuration := 0 } := by
  obtain ⟨h0, h1, h2, h3, h4, h5, h6, h7, h8⟩ := sl_flags c
  obtain ⟨b1, b2, b3⟩ := hc.bits
  unfold getSlHead
  rw [if_neg (by simp)]
  have hl : c.degradationLength * 4096 + c.auSeqLength * 128 + c.packetSeqLength * 4 + 3 < 65536 := by omega
  refine (parses_get8' h0).bind ((parses_get32' hc.words.1).bind ((parses_get32' hc.words.2.1).bind
    ((parses_get8' hc.lengths.1).bind ((parses_get8' hc.lengths.2.1).bind ((parses_get8' hc.lengths.2.2.1).bind
    ((parses_get8' hc.lengths.2.2.2).bind ((parses_get16' hl).bind_nil ?_)))))))
  refine (parses_pure _).congr rfl ?_
  have m : ∀ x : Nat, x &&& 0x1F = x % 32 := fun x => Nat.and_two_pow_sub_one_eq_mod x 5
  have s1 : (c.degradationLength * 4096 + c.auSeqLength * 128 + c.packetSeqLength * 4 + 3) >>> 12 =
      c.degradationLength := by rw [Nat.shiftRight_eq_div_pow]; omega
  have s2 : (c.degradationLength * 4096 + c.auSeqLength * 128 + c.packetSeqLength * 4 + 3) >>> 7 &&& 0x1F =
      c.auSeqLength := by rw [Nat.shiftRight_eq_div_pow, m]; omega
  have s3 : (c.degradationLength * 4096 + c.auSeqLength * 128 + c.packetSeqLength * 4 + 3) >>> 2 &&& 0x1F =
      c.packetSeqLength := by rw [Nat.shiftRight_eq_div_pow, m]; omega
  rw [s1, s2, s3, h1, h2, h3, h4, h5, h6, h7, h8, ← hz]

theorem parsesAt_sl_tail {c : Sl} (hc : c.timestamps = true) {size k : Nat} (hk : k = size) (hs : 1 ≤ size) :
    ParsesAt (do
      let c ← getSlTimestamps c
      let br ← P.bytesRead
      if br = pred32 size then do
        let _ ← get8
        pure c
      else pure c) k [] c := by
  have h1 : Parses (getSlTimestamps c) [] c := by
    unfold getSlTimestamps
    rw [hc, if_pos rfl]
    exact parses_pure _
  refine (h1.at _).bind (x := []) (parsesAt_bytesRead ?_)
  rw [if_neg (by unfold pred32; split <;> simp <;> omega)]
  exact (parses_pure _).at _

theorem parsesAt_sl {c : Sl} (hc : SlOk c) :
    ParsesAt (getSl (5 + (slPayload c).length)) 5 (slPayload c) c := by
  have hlen := slPayload_length c
  unfold getSl
  rcases hc.kind with hz | hz
  · rw [if_pos hz] at hlen
    generalize hs : 5 + (slPayload c).length = size
    unfold slPayload
    rw [if_pos hz]
    refine ((parses_get8' (by omega)).at _).bind ?_
    rw [hz]
    refine ((parses_sl_head hc hz).at _).bind ?_
    by_cases hd : c.durations = true
    · rw [if_pos hd] at hlen ⊢
      refine ParsesAt.bind_nil (a := c) ?_ ?_
      · unfold getSlDurations
        rw [if_pos hd]
        refine Parses.at ?_ _
        exact (parses_get32' hc.words.2.2).bind ((parses_get16' hc.halves.1).bind
          ((parses_get16' hc.halves.2).bind_nil (parses_pure _)))
      · apply parsesAt_sl_tail hc.timestamps
        · simp only [List.length_append, be_length]; omega
        · omega
    · rw [if_neg hd] at hlen ⊢
      have e : ({ c with timeScale := 0, auDuration := 0, cuDuration := 0 } : Sl) = c := by
        obtain ⟨e1, e2, e3⟩ := hc.durations (by simpa using hd)
        cases c
        simp only at e1 e2 e3
        simp only [e1, e2, e3]
      rw [e]
      refine ParsesAt.bind_nil (a := c) ?_ ?_
      · unfold getSlDurations
        rw [if_neg hd]
        exact (parses_pure _).at _
      · apply parsesAt_sl_tail hc.timestamps
        · simp only [List.length_append, be_length, List.length_nil]; omega
        · omega
  · have e : slPayload c = be 1 2 ++ ([] ++ []) := by rw [hz]; rfl
    rw [e]
    refine ((parses_get8' (by omega)).at _).bind ?_
    refine ParsesAt.bind (a := c) ?_ ?_
    · unfold getSlHead
      rw [if_pos (by omega), if_pos rfl, ← hz]
      exact (parses_pure _).at _
    · refine ParsesAt.bind_nil (a := c) ?_ ?_
      · unfold getSlDurations
        rw [if_neg (by rw [hz]; decide)]
        exact (parses_pure _).at _
      · apply parsesAt_sl_tail hc.timestamps
        · simp
        · omega

theorem parsesAt_ptr {p : Ptr} (hp : PtrOk p) :
    ParsesAt (getPtr (5 + (ptrPayload p).length)) 5 (ptrPayload p) p := by
  obtain ⟨id, tool, es⟩ := p
  have hlen := ptrPayload_length ⟨id, tool, es⟩
  unfold getPtr
  generalize hs : 5 + (ptrPayload ⟨id, tool, es⟩).length = size
  unfold ptrPayload
  refine ((parses_get8' hp.id).at _).bind ?_
  refine ParsesAt.bind_nil (a := (⟨id, tool, es⟩ : Ptr)) ?_ (parsesAt_bytesRead ?_)
  · by_cases h : id = 255
    · simp only
      rw [if_pos h, if_pos h]
      refine Parses.at ?_ _
      refine (parses_get16' hp.numbers.1).bind ((parses_get16' hp.numbers.2).bind_nil ?_)
      exact parses_pure _
    · obtain ⟨h1, h2⟩ := hp.short h
      simp only at h1 h2
      subst h1 h2
      simp only
      rw [if_neg h, if_neg h]
      exact (parses_pure _).at _
  · have : 5 + (be 1 id).length + (if id = 255 then be 2 tool ++ be 2 es else []).length = size := by
      simp only at hlen
      rw [← hs, hlen]
      split <;> simp only [List.length_append, be_length, List.length_nil]
    rw [if_neg (by simp only; omega)]
    exact (parses_pure _).at _

def ChildOk : Child → Prop
  | .dec d => DecOk d
  | .sl c => SlOk c
  | .ptr p => PtrOk p
  | .plain d => PlainOk d

theorem parses_child {c : Child} (hc : ChildOk c) (h : (childBytes c).length < 2 ^ 28 + 5) :
    Parses (getDesc getChild) (childBytes c) c := by
  cases c with
  | dec d =>
    simp only [childBytes, decBytes, descr_length (k := 4) (by omega : 1 ≤ 4)] at h ⊢
    refine parses_desc (by omega) (by omega) (by omega) (by omega) ?_
    unfold getChild
    rw [if_pos rfl]
    exact (parsesAt_dec hc (by omega)).bind_nil ((parses_pure _).at _)
  | sl c =>
    simp only [childBytes, slBytes, descr_length (k := 4) (by omega : 1 ≤ 4)] at h ⊢
    refine parses_desc (by omega) (by omega) (by omega) (by omega) ?_
    unfold getChild
    rw [if_neg (by omega), if_pos rfl]
    exact (parsesAt_sl hc).bind_nil ((parses_pure _).at _)
  | ptr p =>
    simp only [childBytes, ptrBytes, descr_length (k := 4) (by omega : 1 ≤ 4)] at h ⊢
    refine parses_desc (by omega) (by omega) (by omega) (by omega) ?_
    unfold getChild
    rw [if_neg (by omega), if_neg (by omega), if_pos rfl]
    exact (parsesAt_ptr hc).bind_nil ((parses_pure _).at _)
  | plain d =>
    obtain ⟨ht, ho⟩ := hc
    simp only [childBytes, plainBytes, descr_length (k := 4) (by omega : 1 ≤ 4)] at h ⊢
    refine parses_desc (by omega) (by omega) (by omega) ht ?_
    have h4 : d.tag ≠ 4 := by intro e; rw [e] at ho; revert ho; decide
    have h6 : d.tag ≠ 6 := by intro e; rw [e] at ho; revert ho; decide
    have h10 : d.tag ≠ 10 := by intro e; rw [e] at ho; revert ho; decide
    unfold getChild
    rw [if_neg h4, if_neg h6, if_neg h10, ho, if_neg (by simp)]
    exact (parsesAt_default (by omega)).bind_nil ((parses_pure _).at _)

theorem childBytes_pos (c : Child) : 1 ≤ (childBytes c).length := by
  cases c <;> simp only [childBytes, decBytes, slBytes, ptrBytes, plainBytes, descr_length (k := 4) (by omega : 1 ≤ 4)] <;> omega

/-- All children put in one after the other. -/
def insertAll : Es → List Child → Res Es
  | e, [] => .ok e
  | e, c :: cs => (insert e c).bind fun e' => insertAll e' cs

theorem insertAll_append (cs ds : List Child) : ∀ e, insertAll e (cs ++ ds) =
    (insertAll e cs).bind fun e' => insertAll e' ds := by
  induction cs with
  | nil => intro e; rfl
  | cons c cs ih =>
    intro e
    simp only [List.cons_append, insertAll]
    cases insert e c with
    | ok e' => simp only [Res.bind]; exact ih e'
    | err x => rfl
    | ub => rfl

theorem parsesAt_loop {size : Nat} (cs : List Child) : ∀ (e e' : Es) (fuel k : Nat), cs.length < fuel →
    (∀ c ∈ cs, Parses (getDesc getChild) (childBytes c) c) → insertAll e cs = .ok e' →
    k + (cs.flatMap childBytes).length = size → ParsesAt (esLoop size fuel e) k (cs.flatMap childBytes) e' := by
  induction cs with
  | nil =>
    intro e e' fuel k hf _ hi hk
    obtain ⟨f, rfl⟩ : ∃ f, fuel = f + 1 := ⟨fuel - 1, by simp at hf; omega⟩
    simp only [insertAll, Res.ok.injEq] at hi
    subst hi
    unfold esLoop
    refine parsesAt_bytesRead ?_
    rw [if_neg (by simp at hk; omega)]
    exact (parses_pure _).at _
  | cons c cs ih =>
    intro e e' fuel k hf hp hi hk
    obtain ⟨f, rfl⟩ : ∃ f, fuel = f + 1 := ⟨fuel - 1, by simp at hf; omega⟩
    have hpos := childBytes_pos c
    rw [List.flatMap_cons, List.length_append] at hk
    rw [List.flatMap_cons]
    unfold esLoop
    refine parsesAt_bytesRead ?_
    rw [if_pos (by omega)]
    refine ((hp c (by simp)).at _).bind ?_
    simp only [insertAll] at hi
    cases hc : insert e c with
    | ok e1 =>
      rw [hc] at hi
      simp only [Res.bind] at hi
      intro r
      rw [P.bind_apply]
      exact ih e1 e' f _ (by simp at hf; omega) (fun x hx => hp x (by simp [hx])) hi (by omega) r
    | err x => rw [hc] at hi; cases hi
    | ub => rw [hc] at hi; cases hi

theorem insertAll_ipiData (l : List Default) (h : ∀ d ∈ l, d.tag = 0x07 ∨ d.tag = 0x08) : ∀ e : Es,
    insertAll e (l.map .plain) = .ok { e with ipiData := e.ipiData ++ l } := by
  induction l with
  | nil => intro e; simp [insertAll]
  | cons d l ih =>
    intro e
    have hd := h d (by simp)
    simp only [List.map_cons, insertAll, insert]
    rw [if_neg (by omega), if_neg (by omega), if_neg (by omega), if_pos hd]
    simp only [Res.bind]
    rw [ih (fun x hx => h x (by simp [hx]))]
    simp

theorem insertAll_ptrs (l : List Ptr) : ∀ e : Es, insertAll e (l.map .ptr) = .ok { e with ptrs := e.ptrs ++ l } := by
  induction l with
  | nil => intro e; simp [insertAll]
  | cons d l ih =>
    intro e
    simp only [List.map_cons, insertAll, insert]
    simp only [Res.bind]
    rw [ih]
    simp

theorem insertAll_lang (l : List Default) (h : ∀ d ∈ l, d.tag = 0x43) : ∀ e : Es,
    insertAll e (l.map .plain) = .ok { e with lang := e.lang ++ l } := by
  induction l with
  | nil => intro e; simp [insertAll]
  | cons d l ih =>
    intro e
    have hd := h d (by simp)
    simp only [List.map_cons, insertAll, insert]
    rw [if_neg (by omega), if_neg (by omega), if_pos hd]
    simp only [Res.bind]
    rw [ih (fun x hx => h x (by simp [hx]))]
    simp

theorem insertAll_ext (l : List Default)
    (h : ∀ d ∈ l, d.tag ≠ 0x07 ∧ d.tag ≠ 0x08 ∧ d.tag ≠ 0x09 ∧ d.tag ≠ 0x0C ∧ d.tag ≠ 0x43) : ∀ e : Es,
    insertAll e (l.map .plain) = .ok { e with ext := e.ext ++ l } := by
  induction l with
  | nil => intro e; simp [insertAll]
  | cons d l ih =>
    intro e
    have hd := h d (by simp)
    simp only [List.map_cons, insertAll, insert]
    rw [if_neg (by omega), if_neg (by omega), if_neg (by omega), if_neg (by omega)]
    simp only [Res.bind]
    rw [ih (fun x hx => h x (by simp [hx]))]
    simp

theorem insertAll_children {e : Es} (he : EsOk e) :
    insertAll ⟨e.esid, e.priority, e.dependsOn, e.url, e.ocr, none, none, none, none, [], [], [], []⟩ (esChildren e) =
      .ok e := by
  obtain ⟨esid, priority, dependsOn, url, ocr, decoder, sl, ipi, qos, ipiData, ptrs, lang, ext⟩ := e
  unfold esChildren
  simp only
  rw [insertAll_append]
  have h1 : ∀ x : Es, x.decoder = none →
      insertAll x (decoder.toList.map .dec) = .ok { x with decoder := decoder } := by
    intro x hx
    cases decoder with
    | none => cases x; simp only at hx; subst hx; rfl
    | some d => simp [insertAll, insert, hx, Res.bind]
  have h2 : ∀ x : Es, x.sl = none → insertAll x (sl.toList.map .sl) = .ok { x with sl := sl } := by
    intro x hx
    cases sl with
    | none => cases x; simp only at hx; subst hx; rfl
    | some d => simp [insertAll, insert, hx, Res.bind]
  have h3 : ∀ x : Es, x.ipi = none → insertAll x (ipi.toList.map .plain) = .ok { x with ipi := ipi } := by
    intro x hx
    cases ipi with
    | none => cases x; simp only at hx; subst hx; rfl
    | some d => simp [insertAll, insert, hx, Res.bind, he.ipi d rfl]
  have h4 : ∀ x : Es, x.qos = none → insertAll x (qos.toList.map .plain) = .ok { x with qos := qos } := by
    intro x hx
    cases qos with
    | none => cases x; simp only at hx; subst hx; rfl
    | some d => simp [insertAll, insert, hx, Res.bind, he.qos d rfl]
  rw [h1 _ rfl]
  simp only [Res.bind]
  rw [insertAll_append, h2 _ rfl]
  simp only [Res.bind]
  rw [insertAll_append, h3 _ rfl]
  simp only [Res.bind]
  rw [insertAll_append, insertAll_ipiData _ he.ipiData]
  simp only [Res.bind]
  rw [insertAll_append, insertAll_ptrs]
  simp only [Res.bind]
  rw [insertAll_append, insertAll_lang _ he.lang]
  simp only [Res.bind]
  rw [insertAll_append, h4 _ rfl]
  simp only [Res.bind]
  rw [insertAll_ext _ (fun d hd => (he.ext d hd).2)]
  simp only [List.nil_append]

theorem children_ok {e : Es} (he : EsOk e) : ∀ c ∈ esChildren e, ChildOk c := by
  intro c hc
  have hp : ∀ d : Default, (d.tag = 0x07 ∨ d.tag = 0x08 ∨ d.tag = 0x09 ∨ d.tag = 0x0C ∨ d.tag = 0x43) → PlainOk d := by
    intro d hd
    rcases hd with h | h | h | h | h <;> exact ⟨by omega, by rw [h]; decide⟩
  simp only [esChildren, List.mem_append, List.mem_map, Option.mem_toList] at hc
  rcases hc with ⟨d, hd, rfl⟩ | ⟨d, hd, rfl⟩ | ⟨d, hd, rfl⟩ | ⟨d, hd, rfl⟩ | ⟨d, hd, rfl⟩ | ⟨d, hd, rfl⟩ | ⟨d, hd, rfl⟩ |
    ⟨d, hd, rfl⟩
  · exact he.decoder d hd
  · exact he.sl d hd
  · exact hp d (by have := he.ipi d hd; omega)
  · exact hp d (by have := he.ipiData d hd; omega)
  · exact he.ptrs d hd
  · exact hp d (by have := he.lang d hd; omega)
  · exact hp d (by have := he.qos d hd; omega)
  · exact (he.ext d hd).1

theorem es_flag_bits (p : Nat) (a b c : Bool) (hp : p < 32) :
    ((if c then 0 else 128) + (if b then 0 else 64) + (if a then 0 else 32) + p) < 256 ∧
    (((if c then 0 else 128) + (if b then 0 else 64) + (if a then 0 else 32) + p) &&& 0x80 = if c then 0 else 128) ∧
    (((if c then 0 else 128) + (if b then 0 else 64) + (if a then 0 else 32) + p) &&& 0x40 = if b then 0 else 64) ∧
    (((if c then 0 else 128) + (if b then 0 else 64) + (if a then 0 else 32) + p) &&& 0x20 = if a then 0 else 32) ∧
    (((if c then 0 else 128) + (if b then 0 else 64) + (if a then 0 else 32) + p) &&& 0x1F = p) := by
  revert a b c
  revert p
  decide

theorem length_le_flat (cs : List Child) : cs.length ≤ (cs.flatMap childBytes).length := by
  induction cs with
  | nil => simp
  | cons c cs ih =>
    have := childBytes_pos c
    rw [List.flatMap_cons, List.length_append, List.length_cons]
    omega

theorem parsesAt_es {e : Es} (he : EsOk e) (h : (esPayload e).length < 2 ^ 28) :
    ParsesAt (getEs (5 + (esPayload e).length)) 5 (esPayload e) e := by
  obtain ⟨h1, h2, h3, h4, h5⟩ := he.head
  have hb := es_flag_bits e.priority (decide (e.ocr = 0)) (decide (e.url = [])) (decide (e.dependsOn = 0)) h2
  simp only [decide_eq_true_eq] at hb
  obtain ⟨b0, b1, b2, b3, b4⟩ := hb
  have hlen : (esPayload e).length = (esHead e).length + ((esChildren e).flatMap childBytes).length := by
    rw [esPayload, List.length_append]
  generalize hs : 5 + (esPayload e).length = size
  unfold esPayload
  have hh : esHead e ++ (esChildren e).flatMap childBytes = esHead e ++ (esChildren e).flatMap childBytes := rfl
  unfold getEs
  conv => arg 3; unfold esHead
  simp only [List.append_assoc]
  have hl2 := hlen
  unfold esHead at hl2
  simp only [List.length_append, be_length] at hl2
  refine ((parses_get16' h1).at _).bind (((parses_get8' b0).at _).bind ?_)
  rw [b4]
  refine ParsesAt.bind (a := e.dependsOn) ?_ ?_
  · unfold getIf
    simp only [b1]
    by_cases hz : e.dependsOn = 0
    · simp only [hz, if_true, ne_eq, not_true, if_false]; exact (parses_pure _).at _
    · simp only [hz, if_false, ne_eq]
      rw [if_pos (by omega)]
      exact (parses_get16' h3).at _
  refine ParsesAt.bind (a := e.url) ?_ ?_
  · unfold getIf
    simp only [b2]
    by_cases hz : e.url = []
    · simp only [hz, if_true, ne_eq, not_true, if_false]; exact (parses_pure _).at _
    · simp only [hz, if_false]
      rw [if_pos (by omega)]
      exact ((parses_get8' h4).bind (parses_getBytes rfl)).at _
  refine ParsesAt.bind (a := e.ocr) ?_ ?_
  · unfold getIf
    simp only [b3]
    by_cases hz : e.ocr = 0
    · simp only [hz, if_true, ne_eq, not_true, if_false]; exact (parses_pure _).at _
    · simp only [hz, if_false]
      rw [if_pos (by omega)]
      exact (parses_get16' h5).at _
  · intro r
    rw [P.bind_apply]
    simp only [P.available]
    refine parsesAt_loop (size := size) (esChildren e) _ e _ _ ?_ ?_ (insertAll_children he) ?_ r
    · have := length_le_flat (esChildren e)
      simp only [List.length_append]
      omega
    · intro c hc
      have := child_le hc
      exact parses_child (children_ok he c hc) (by omega)
    · simp only [be_length]
      omega

/-! ## The property -/

/-- An ES descriptor with everything in range and its parts in the members for their tags is written
in the standard layout, and reading gives back the same descriptor and what follows. -/
theorem c49_es_descriptor (e : Es) (he : EsOk e) (h : (esPayload e).length < 2 ^ 28) :
    runW (esSize e) (putEs e) = .ok (esBytes e) ∧ (esBytes e).length = esSize e ∧
    ∀ (rest : Bytes) (read : Nat), getDesc (fun _ size => getEs size) ⟨esBytes e ++ rest, read⟩ =
      .ok (e, ⟨rest, read + esSize e⟩) := by
  obtain ⟨hw, hl⟩ := run_es he h
  refine ⟨hw, hl, ?_⟩
  intro rest read
  rw [← hl]
  exact parses_desc (by omega) (by omega) (by omega) (by omega) (parsesAt_es he h) rest read

/-- The `esds` box with such a descriptor. -/
theorem c49_esds_box (version flags : Nat) (e : Es) (hv : version < 256) (hf : flags < 2 ^ 24) (he : EsOk e)
    (h : (esPayload e).length < 2 ^ 28) :
    BoxRoundTrip (esdsSize e) (esdsSerialize version flags e) esdsParse ((version, flags), some e)
      (fullBox (fcc 'e' 's' 'd' 's') version flags (esBytes e)) := by
  obtain ⟨hw, hl⟩ := run_es he h
  have hd : (esBytes e).length = 5 + (esPayload e).length := descr_length (by omega) _ _
  have hsz : esdsSize e = 12 + esSize e := by unfold esdsSize; omega
  refine BoxRoundTrip.ofFull (type := typeEsds) ?_ ?_ ?_ ?_ (by decide) (by decide)
  · exact (emits_nested hw hl).thenAssert
  · unfold esdsParse
    refine ((parses_versionFlags hv hf).at _).bind (parsesAt_bytesRead ?_)
    simp only [List.length_append, be_length]
    rw [if_neg (by omega)]
    apply Parses.at
    refine Parses.bind_nil (a := e) ?_ (parses_pure _)
    refine parses_desc (by omega) (by omega) (by omega) (by omega) ?_
    rw [if_pos rfl]
    exact parsesAt_es he h
  · omega
  · omega

/-- Adding descriptors other than those of the OCI extension range keeps a descriptor writable. -/
theorem c49_add_keeps {e e' : Es} {c : Child} (he : EsOk e) (hc : ChildOk c)
    (ho : ∀ d, c = .plain d → ¬ (0x4A ≤ d.tag ∧ d.tag ≤ 0x5F)) (h : addDescriptor e c = .ok e') : EsOk e' := by
  have hi : insert e c = .ok e' := by
    cases c with
    | plain d => simp only [addDescriptor] at h; rwa [if_neg (ho d rfl)] at h
    | dec d => exact h
    | sl d => exact h
    | ptr d => exact h
  cases c with
  | dec d =>
    simp only [insert] at hi
    split at hi
    · cases hi
    · cases hi
      exact { he with decoder := fun x hx => by cases hx; exact hc }
  | sl d =>
    simp only [insert] at hi
    split at hi
    · cases hi
    · cases hi
      exact { he with sl := fun x hx => by cases hx; exact hc }
  | ptr d =>
    simp only [insert] at hi
    cases hi
    have key : ∀ x ∈ e.ptrs ++ [d], PtrOk x := by
      intro x hx
      rcases List.mem_append.1 hx with hx | hx
      · exact he.ptrs x hx
      · rw [List.mem_singleton.1 hx]; exact hc
    exact { he with ptrs := key }
  | plain d =>
    simp only [insert] at hi
    split at hi
    · rename_i ht
      split at hi
      · cases hi
      · cases hi
        exact { he with ipi := fun x hx => by cases hx; exact ht }
    · split at hi
      · rename_i ht
        split at hi
        · cases hi
        · cases hi
          exact { he with qos := fun x hx => by cases hx; exact ht }
      · split at hi
        · rename_i ht
          cases hi
          have key : ∀ x ∈ e.lang ++ [d], x.tag = 0x43 := by
            intro x hx
            rcases List.mem_append.1 hx with hx | hx
            · exact he.lang x hx
            · rw [List.mem_singleton.1 hx]; exact ht
          exact { he with lang := key }
        · split at hi
          · rename_i ht
            cases hi
            have key : ∀ x ∈ e.ipiData ++ [d], x.tag = 0x07 ∨ x.tag = 0x08 := by
              intro x hx
              rcases List.mem_append.1 hx with hx | hx
              · exact he.ipiData x hx
              · rw [List.mem_singleton.1 hx]; exact ht
            exact { he with ipiData := key }
          · cases hi
            have key : ∀ x ∈ e.ext ++ [d], PlainOk x ∧ x.tag ≠ 0x07 ∧ x.tag ≠ 0x08 ∧ x.tag ≠ 0x09 ∧
                x.tag ≠ 0x0C ∧ x.tag ≠ 0x43 := by
              intro x hx
              rcases List.mem_append.1 hx with hx | hx
              · exact he.ext x hx
              · rw [List.mem_singleton.1 hx]
                exact ⟨hc, by omega⟩
            exact { he with ext := key }

/-- An audio stream: decoder configuration with two bytes of decoder specific information, and the
SL configuration predefined for files. -/
def audio : Es :=
  ⟨1, 0, 0, [], 0, some ⟨0x40, 5, false, 6144, 128000, 96000, some ⟨5, [0x12, 0x10]⟩⟩,
    some { Sl.zero with predefined := 2, timestamps := true }, none, none, [], [], [], []⟩

theorem audio_ok : EsOk audio where
  head := by decide
  decoder := by intro d hd; cases hd; exact ⟨by decide, by decide, by decide, by decide, by intro i hi; cases hi; rfl⟩
  sl := by
    intro c hc
    cases hc
    exact ⟨rfl, .inr rfl, by decide, by decide, by decide, by decide, by decide⟩
  ipi := by intro d hd; cases hd
  qos := by intro d hd; cases hd
  ipiData := by intro d hd; cases hd
  ptrs := by intro d hd; cases hd
  lang := by intro d hd; cases hd
  ext := by intro d hd; cases hd

example : EsOk audio ∧ (esPayload audio).length = 34 := ⟨audio_ok, by decide⟩

/-- One with every optional part: dependence, URL, OCR stream, explicit SL configuration with
durations, and further descriptors. -/
def full : Es :=
  ⟨7, 31, 3, [0x78, 0x3a], 9, some ⟨0x20, 4, true, 0x123456, 1, 2, none⟩,
    some ⟨0, true, false, true, false, true, true, false, true, 90000, 1000, 32, 16, 8, 4, 3, 2, 1, 25, 40, 20⟩,
    some ⟨9, [1]⟩, some ⟨0xC, [2, 3]⟩, [⟨7, []⟩, ⟨8, [4]⟩], [⟨1, 0, 0⟩, ⟨255, 2, 3⟩], [⟨0x43, [5]⟩], [⟨0xD, [6]⟩, ⟨0xFE, [7]⟩]⟩

example : (runW (esSize full) (putEs full)).bind (fun bs => getDesc (fun _ size => getEs size) ⟨bs ++ [1, 2], 0⟩) =
    .ok (full, ⟨[1, 2], esSize full⟩) := by decide +kernel

/-- A descriptor of the OCI extension range is put in one list when added and in another one when
parsed. -/
theorem c49_oci_moves :
    ∃ e e' bs, addDescriptor audio (.plain ⟨0x4A, [1]⟩) = .ok e ∧ e.ipiData = [⟨0x4A, [1]⟩] ∧
      runW (esSize e) (putEs e) = .ok bs ∧
      getDesc (fun _ size => getEs size) ⟨bs, 0⟩ = .ok (e', ⟨[], esSize e⟩) ∧
      e'.ipiData = [] ∧ e'.ext = [⟨0x4A, [1]⟩] := by
  refine ⟨{ audio with ipiData := [⟨0x4A, [1]⟩] }, { audio with ext := [⟨0x4A, [1]⟩] }, _, rfl, rfl, rfl, ?_, rfl, rfl⟩
  decide +kernel

/-- Own time stamps in the SL configuration cannot be written. -/
theorem c49_own_timestamps_not_written (c : Sl) (h : c.timestamps = false) (bs : Bytes) :
    runW (slSize c) (putSl c) ≠ .ok bs := by
  intro hr
  unfold runW putSl W.seq at hr
  rw [h] at hr
  simp only [Bool.false_eq_true, if_false] at hr
  have key : ∀ (r : Res WS) (f : WS → Res WS), (∀ s, ∃ x, f s = .err x ∨ f s = .ub) →
      ∀ b, (match r.bind f with | .ok s => Res.ok s.out | .err e => .err e | .ub => .ub) ≠ .ok b := by
    intro r f hf b
    cases r with
    | ok s =>
      obtain ⟨x, hx | hx⟩ := hf s <;> simp [Res.bind, hx]
    | err e => simp [Res.bind]
    | ub => simp [Res.bind]
  have step : ∀ (w : WS → Res WS) (f : WS → Res WS), (∀ s, ∃ x, f s = .err x ∨ f s = .ub) →
      ∀ s, ∃ x, (w s).bind f = .err x ∨ (w s).bind f = .ub := by
    intro w f hf s
    cases hw : w s with
    | ok s' => exact hf s'
    | err e => exact ⟨e, .inl rfl⟩
    | ub => exact ⟨.ioErr, .inr rfl⟩
  refine key _ _ ?_ bs hr
  exact step _ _ (step _ _ (step _ _ fun s => ⟨_, .inl rfl⟩))

end Verif.Descr
