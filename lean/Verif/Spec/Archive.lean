import Verif.Model.Env
import Verif.Spec.Accept
import Verif.Spec.Header
/-!
Which byte strings are archives, and what they contain: by positions in the byte string, independent of the reading functions.
-/
namespace Bloscpack.Spec
variable {μ : Type}

/-- the digest of `d` for a documented checksum name; hashlib's functions under their own names -/
def digest (E : Env μ) (name : String) (d : Bytes) : Bytes :=
  if name = "None" then []
  else if name = "adler32" then leBytes 4 (adler32 d)
  else if name = "crc32" then leBytes 4 (crc32 d)
  else E.hashlib name d

/-- `x` has a metadata section from position `start` to position `stop` that holds `md`:
a metadata header of 32 bytes, whose format is `JSON` (possibly with NULs on either side); then the body (as long as the header says, or
what is left of the file); then, as far behind the *beginning* of the body as the maximal size of the metadata says if the body is
complete, the digest of the body. A file on disk must not be left over its beginning by that. The body, decompressed if the header says
so, is the text of the metadata. -/
def MetadataAt (E : Env μ) (inMemory : Bool) (x : Bytes) (start stop : Nat) (md : Option μ) : Prop :=
  ∃ (magic user : Bytes) (options : List Char) (checksum codec : String) (level size maxSize compSize : Int) (i j : Nat)
    (body raw : Bytes),
    MetaFieldsOK magic options checksum codec level size maxSize compSize user ∧ magic.length = 8 ∧ user.length = 8 ∧
    magic = List.replicate i 0 ++ [74, 83, 79, 78] ++ List.replicate j 0 ∧
    slice x start (start + 32) = metaHeaderBytes magic options checksum codec level size maxSize compSize user ∧
    body = slice x (start + 32) (start + 32 + compSize.toNat) ∧
    (inMemory = true ∨ 0 ≤ start + 32 + body.length + maxSize - compSize) ∧
    stop = (start + 32 + body.length + maxSize - compSize).toNat + digestSize checksum ∧
    slice x (stop - digestSize checksum) stop = digest E checksum body ∧
    (codec = "None" ∧ raw = body ∨ codec = "zlib" ∧ E.zdecompress body = .ok raw) ∧
    E.loads raw = .ok md

/-- `x` is an archive that holds the data `out` and the metadata `md`:
* it starts with a header of format version 3;
* if the header says so, a metadata section follows;
* if the header says so, offsets follow; their number must be known, those in use must be there, and all of them, used or not, must take less
  than 2^63 bytes;
* then the chunks.

An unknown number of chunks (-1) means: no chunks are read. -/
def Archive (E : Env μ) (inMemory : Bool) (x out : Bytes) (md : Option μ) : Prop :=
  ∃ (offsets metadata : Bool) (checksum : String) (typesize chunkSize lastChunk nchunks maxApp : Int) (p q : Nat),
    HeaderFieldsOK 3 typesize chunkSize lastChunk nchunks maxApp checksum ∧
    x.take 32 = headerBytes 3 offsets metadata checksum typesize chunkSize lastChunk nchunks maxApp ∧
    (metadata = true ∧ MetadataAt E inMemory x 32 p md ∨ metadata = false ∧ md = none ∧ p = 32) ∧
    (offsets = true ∧ 0 ≤ nchunks ∧ (nchunks = 0 ∨ p + 8 * nchunks ≤ x.length) ∧ 8 * (nchunks + maxApp) < 2 ^ 63 ∧
        q = p + 8 * (nchunks + maxApp) ∨
      offsets = false ∧ q = p) ∧
    Chunks E (digest E checksum) (x.drop q) nchunks.toNat out

end Bloscpack.Spec
