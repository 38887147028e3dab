import Verif.Model.FileIO
import Verif.Model.Env
/-
Specification of C75: the typesize in the header of a file is that of its chunks.
-/
namespace Bloscpack.Spec
variable {μ : Type}

/-- what a blosc header says about the typesize of its chunk: byte 3 (`a.typesize` is between 1 and 255, see `BloscArgs.Valid`) -/
def RecordsTypesize (E : Env μ) : Prop :=
  ∀ d a c, E.compress d a = .ok c → c[3]? = some (UInt8.ofNat a.typesize.toNat)

/-- reading the beginning of the file and then, at every offset, a chunk: the typesizes in the headers of the chunks -/
def ChunkTypesizes (E : Env μ) (file : Bytes) (header : Int) (chunks : List Int) : Prop :=
  ∃ h md mh os fp impl, readBeginning E { data := file } = (.ok (h, md, mh, os), fp) ∧ h.checksumImpl E = .ok impl ∧
    h.typesize = header ∧ (os.length : Int) = h.nchunks ∧ chunks.length = os.length ∧
    ∀ i (hi : i < os.length) (hj : i < chunks.length), ∃ c bh digest s,
      readCompressedChunk impl { data := file, pos := os[i].toNat } = (.ok (c, bh, digest), s) ∧ bh.typesize = chunks[i]

end Bloscpack.Spec
