import Verif.Spec.Args
import Verif.Spec.Header
import Verif.Model.Env
/-
Which settings are valid, in terms of the documentation: used by the theorems saying that a call returns.
-/
namespace Bloscpack.Spec
variable {μ : Type}

/-- Valid settings for packing `size` bytes: a chunk size between 1 and blosc's limit (any, if there is nothing to
chunk), arguments blosc accepts, a known checksum, and a non-negative number of append chunks that keeps the file below
2^63 bytes. -/
structure GoodSettings (E : Env μ) (size : Nat) (cs : ChunkSizeArg) (a : BloscArgs) (b : BloscpackArgs) : Prop where
  small : size < 2 ^ 50
  chunk : size ≠ 0 → ∃ v, RequestedSize cs v ∧ 1 ≤ v ∧ v ≤ 2 ^ 31 - 17
  blosc : a.Valid E
  checksum : b.checksum ∈ checksumNames
  apps : b.offsets = true → ∀ n, 1 ≤ n → n ≤ 2 ^ 50 → ∃ w, RequestedApps b.max_app_chunks n w ∧ 0 ≤ w ∧ w < 2 ^ 59

/-- Metadata that can be stored: none, or serializable, with known checksum and codec, a level 0..9, and room for the
serialized form within the limit of 2^32 - 1 bytes. -/
def GoodMetadata (E : Env μ) (md : Option μ) (m : MetadataArgs) : Prop :=
  md = none ∨
  (m.magic_format = [74, 83, 79, 78] ∧ m.meta_checksum ∈ checksumNames ∧ m.meta_codec ∈ codecNames ∧
    0 ≤ m.meta_level ∧ m.meta_level ≤ 9 ∧
    ∃ (s : List Char) (room : Int), E.dumps md = .ok s ∧
      (m.max_meta_size = .int room ∨ ∃ f, m.max_meta_size = .callable f ∧ f s.length = room) ∧
      (s.length : Int) ≤ room ∧ room ≤ 2 ^ 32 - 1)

end Bloscpack.Spec
