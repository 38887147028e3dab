import Verif.Spec.Archive
/-!
Which bytes of a file count as verified: by positions in the byte string, independent of the reading functions.
-/
namespace Bloscpack.Spec
variable {μ : Type}

/-- `c` stands somewhere in `x`, and behind it its digest, by the checksum that the header at the beginning of `x` names; or else nothing at
all stands behind it -/
def VerifiedChunk (E : Env μ) (x c : Bytes) : Prop :=
  ∃ (offsets metadata : Bool) (checksum : String) (typesize chunkSize lastChunk nchunks maxApp : Int) (before behind : Bytes),
    HeaderFieldsOK 3 typesize chunkSize lastChunk nchunks maxApp checksum ∧
    x.take 32 = headerBytes 3 offsets metadata checksum typesize chunkSize lastChunk nchunks maxApp ∧
    x = before ++ (c ++ behind) ∧ (digest E checksum c <+: behind ∨ behind = [])

/-- `body` stands behind the metadata header in `x`, as long as that says (or as long as there is something), and its digest stands where the
metadata header says -/
def VerifiedBody (E : Env μ) (x body : Bytes) : Prop :=
  ∃ (magic user : Bytes) (options : List Char) (checksum codec : String) (level size maxSize compSize : Int) (p : Nat),
    MetaFieldsOK magic options checksum codec level size maxSize compSize user ∧
    slice x 32 64 = metaHeaderBytes magic options checksum codec level size maxSize compSize user ∧
    body = slice x 64 (64 + compSize.toNat) ∧
    p = (64 + body.length + maxSize - compSize).toNat ∧
    slice x p (p + digestSize checksum) = digest E checksum body

end Bloscpack.Spec
