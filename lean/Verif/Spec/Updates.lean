import Verif.Spec.Append
import Verif.Spec.Refused
import Verif.Spec.Format
/-
Why an append and why a rewriting of the metadata are refused: the reasons in the order in which they are looked for, each with its
exception.
-/
namespace Bloscpack.Spec
variable {μ : Type}

/-- Appending is refused: because the file has no offsets; or because it was packed from nothing and something is to be appended; or because
the old and the new data together need more chunks than there are and are reserved; or because blosc refuses what the last chunk
is to be filled up to (`a` are the settings after those left open were filled in). -/
def AppendRefused (E : Env μ) (h : BloscpackHeader) (old new : Bytes) (a : BloscArgs) (e : Err) : Prop :=
  (h.offsets = false ∧ e = .runtimeError) ∨
  (h.offsets = true ∧
    ((h.chunk_size = 0 ∧ new ≠ [] ∧ e = .valueError) ∨
     (h.chunk_size = 0 ∧ new = [] ∧ E.compress [] a = .error e) ∨
     (1 ≤ h.chunk_size ∧ ∃ N, ChunkCount h.chunk_size (old ++ new).length N ∧
       ((h.nchunks + h.max_app_chunks < N ∧ e = .notEnoughSpace) ∨
        (N ≤ h.nchunks + h.max_app_chunks ∧
          E.compress (((old ++ new).drop (h.chunk_size * (h.nchunks - 1)).toNat).take h.chunk_size.toNat) a = .error e)))))

/-- The settings for a rewriting are refused: serializer, checksum, its size, codec, level, in this order; only what is given is looked at. -/
def OverridesRefused (old : MetadataHeader) (x : RewriteArgs) (e : Err) : Prop :=
  (∃ f, x.magic_format = some f ∧ f ≠ [74, 83, 79, 78] ∧ e = .noSuchSerializer) ∨
  ((∀ f, x.magic_format = some f → f = [74, 83, 79, 78]) ∧
    ((∃ c, x.checksum = some c ∧ c ∉ checksumNames ∧ e = .noSuchChecksum) ∨
     (∃ c, x.checksum = some c ∧ c ∈ checksumNames ∧ digestSize c ≠ digestSize old.meta_checksum ∧ e = .checksumLengthMismatch) ∨
     ((∀ c, x.checksum = some c → c ∈ checksumNames ∧ digestSize c = digestSize old.meta_checksum) ∧
       ((∃ c, x.codec = some c ∧ c ∉ codecNames ∧ e = .noSuchCodec) ∨
        ((∀ c, x.codec = some c → c ∈ codecNames) ∧ ∃ l, x.level = some l ∧ ¬ (0 ≤ l ∧ l ≤ 9) ∧ e = .valueError)))))

/-- The settings for a rewriting: those of the file where none are given, and the room there is. -/
def overridden (old : MetadataHeader) (x : RewriteArgs) : MetadataArgs :=
  { magic_format := x.magic_format.getD old.magic_format, meta_checksum := x.checksum.getD old.meta_checksum,
    meta_codec := x.codec.getD old.meta_codec, meta_level := x.level.getD old.meta_level, max_meta_size := .int old.max_meta_size }

/-- Rewriting the metadata is refused: because there is no metadata section (`sec` is its header and the metadata in it); or because the
metadata are already there; or because of the settings; or for a reason to refuse metadata when packing. -/
def RewriteRefused (E : Env μ) (sec : Option (MetadataHeader × Option μ)) (md : Option μ) (x : RewriteArgs) (e : Err) : Prop :=
  (sec = none ∧ e = .noMetadataFound) ∨
  ∃ old was, sec = some (old, was) ∧
    ((E.metaEq was md = true ∧ e = .noChangeInMetadata) ∨
     (E.metaEq was md = false ∧
      (OverridesRefused old x e ∨
       ((∀ e', ¬ OverridesRefused old x e') ∧ MetadataRefused E md (overridden old x) e))))

end Bloscpack.Spec
