import Verif.Model.FileIO
/-
What a user can observe of a file with the reading functions.
-/
namespace Bloscpack.Spec
variable {μ : Type}

/-- The offsets table of `file` is exact: there is one entry per chunk, reading a chunk at entry `i` gives the `i`-th
chunk-size slice of `data` with a correct digest, and the reserved entries, which end where the first chunk starts, are
all -1 (eight bytes 0xff). -/
def OffsetsExact (E : Env μ) (file data : Bytes) : Prop :=
  ∃ h md mh os fp impl, readBeginning E { data := file } = (.ok (h, md, mh, os), fp) ∧
    h.checksumImpl E = .ok impl ∧ (os.length : Int) = h.nchunks ∧ 0 < os.length ∧
    (∀ i (hi : i < os.length), 0 ≤ os[i] ∧ ∃ c bh digest s,
      readCompressedChunk impl { data := file, pos := os[i].toNat } = (.ok (c, bh, digest), s) ∧
      digest = (if impl.size > 0 then some (impl.function c) else none) ∧
      E.decompress c = .ok (slice data (i * h.chunk_size.toNat) ((i + 1) * h.chunk_size.toNat))) ∧
    os[0]? = some (fp.pos : Int) ∧
    8 * h.max_app_chunks.toNat ≤ fp.pos ∧
    slice file (fp.pos - 8 * h.max_app_chunks.toNat) fp.pos = List.replicate (8 * h.max_app_chunks.toNat) 255

end Bloscpack.Spec
