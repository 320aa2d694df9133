import Verif.Spec.Rle

/-!
# Sample-to-chunk tables as plain per-chunk lists
-/

namespace Verif

/-- One entry of a sample-to-chunk table. -/
structure StscEntry where
  first : Nat
  spc : Nat
  desc : Nat
  deriving DecidableEq, Repr

/-- The runs of chunks of a table, for a track of `N` chunks: each entry reaches to the chunk
before the next entry's first chunk, the last one to chunk `N`. -/
def chunkRuns : List StscEntry → Nat → List (Nat × (Nat × Nat))
  | [], _ => []
  | [p], N => [(N + 1 - p.first, (p.spc, p.desc))]
  | p :: q :: r, N => (q.first - p.first, (p.spc, p.desc)) :: chunkRuns (q :: r) N

/-- Per chunk: number of samples and sample description index. -/
def chunksOf (es : List StscEntry) (N : Nat) : List (Nat × Nat) := expand (chunkRuns es N)

/-- Number of samples in the chunks before chunk `c` (0-based). -/
def samplesBefore (chunks : List (Nat × Nat)) (c : Nat) : Nat := startOf (chunks.map Prod.fst) c

/-- Chunk `c` (0-based) holds sample `n` (1-based). -/
def ChunkHolds (chunks : List (Nat × Nat)) (n c : Nat) : Prop :=
  ∃ s d, chunks[c]? = some (s, d) ∧ samplesBefore chunks c < n ∧ n ≤ samplesBefore chunks c + s

/-- A well-formed table for `N` chunks: the first run starts with chunk 1, first chunks increase,
no run is beyond chunk `N`, and every chunk has a sample. -/
structure StscWF (es : List StscEntry) (N : Nat) : Prop where
  head : ∀ e, es[0]? = some e → e.first = 1
  incr : ∀ (i : Nat) (a b : StscEntry), es[i]? = some a → es[i + 1]? = some b → a.first < b.first
  last : ∀ e ∈ es, e.first ≤ N
  spc : ∀ e ∈ es, 0 < e.spc

end Verif
