import Verif.Spec.Archive
/-!
Why a byte string is not unpacked, and what has been unpacked by then: by positions in the byte string, independent of the reading
functions. The reasons stand in the order in which they are met.
-/
namespace Bloscpack.Spec
variable {μ : Type}

/-- There is no header, or one of another version of the format. -/
def HeaderRefused (x : Bytes) (e : Err) : Prop :=
  ((∀ v o m ck t c l n a, HeaderFieldsOK v t c l n a ck → x.take 32 ≠ headerBytes v o m ck t c l n a) ∧
    (((∃ v o c rest, x = [98, 108, 112, 107, v, o, c] ++ rest ∧ 25 ≤ rest.length ∧ o < 4 ∧ 9 ≤ c) ∧ e = .indexError) ∨
     ((¬ ∃ v o c rest, x = [98, 108, 112, 107, v, o, c] ++ rest ∧ 25 ≤ rest.length ∧ o < 4 ∧ 9 ≤ c) ∧ e = .valueError))) ∨
  ∃ v o m ck t c l n a, HeaderFieldsOK v t c l n a ck ∧ x.take 32 = headerBytes v o m ck t c l n a ∧ v ≠ 3 ∧
    e = .formatVersionMismatch

/-- What is at position `start` of `x` is not a readable metadata section: there are less than 32 bytes; or the number of the checksum or
of the codec does not exist; or the level is not one; or, for a file on disk, the sizes lead to before its beginning; or the digest
is wrong; or zlib refuses the body; or the format is not `JSON`; or the text is refused. -/
def MetadataRefusedAt (E : Env μ) (inMemory : Bool) (x : Bytes) (start : Nat) (e : Err) : Prop :=
  (x.length < start + 32 ∧ e = .valueError) ∨
  (∃ k c l, start + 32 ≤ x.length ∧ x[start + 9]? = some k ∧ x[start + 10]? = some c ∧ x[start + 11]? = some l ∧
    (((9 ≤ k.toNat ∨ 2 ≤ c.toNat) ∧ e = .indexError) ∨ (k.toNat < 9 ∧ c.toNat < 2 ∧ 9 < l.toNat ∧ e = .valueError))) ∨
  ∃ (magic user : Bytes) (options : List Char) (checksum codec : String) (level size maxSize compSize : Int) (body : Bytes) (at_ : Int),
    MetaFieldsOK magic options checksum codec level size maxSize compSize user ∧ magic.length = 8 ∧ user.length = 8 ∧
    slice x start (start + 32) = metaHeaderBytes magic options checksum codec level size maxSize compSize user ∧
    body = slice x (start + 32) (start + 32 + compSize.toNat) ∧ at_ = start + 32 + body.length + maxSize - compSize ∧
    ((inMemory = false ∧ at_ < 0 ∧ e = .osError) ∨
     ((inMemory = true ∨ 0 ≤ at_) ∧
      ((slice x at_.toNat (at_.toNat + digestSize checksum) ≠ digest E checksum body ∧ e = .checksumMismatch) ∨
       (slice x at_.toNat (at_.toNat + digestSize checksum) = digest E checksum body ∧
        ((codec = "zlib" ∧ E.zdecompress body = .error e) ∨
         ∃ raw, (codec = "None" ∧ raw = body ∨ codec = "zlib" ∧ E.zdecompress body = .ok raw) ∧
          (((¬ ∃ i j, magic = List.replicate i 0 ++ [74, 83, 79, 78] ++ List.replicate j 0) ∧ e = .keyError) ∨
           ((∃ i j, magic = List.replicate i 0 ++ [74, 83, 79, 78] ++ List.replicate j 0) ∧ E.loads raw = .error e)))))))

/-- The chunks cannot be read: what is left is too short for a chunk; or the digest behind a chunk (as far as there is one) is wrong; or
blosc refuses it. `out` is what the chunks before hold. -/
inductive ChunksRefused (E : Env μ) (digest : Bytes → Bytes) (size : Nat) : Bytes → Nat → Bytes → Err → Prop
  | none (s : Bytes) (n : Nat) : s.length < 4 → ChunksRefused E digest size s (n + 1) [] .indexError
  | short (s : Bytes) (n : Nat) : 4 ≤ s.length → s.length < 16 → ChunksRefused E digest size s (n + 1) [] .structError
  | mismatch (s : Bytes) (n k : Nat) (d : Bytes) : 16 ≤ s.length → k = leDecode (slice s 12 16) → d = slice s k (k + size) → d ≠ [] →
      d ≠ digest (s.take k) → ChunksRefused E digest size s (n + 1) [] .checksumMismatch
  | undecodable (s : Bytes) (n k : Nat) (d : Bytes) (e : Err) : 16 ≤ s.length → k = leDecode (slice s 12 16) → d = slice s k (k + size) →
      d = [] ∨ d = digest (s.take k) → E.decompress (s.take k) = .error e → ChunksRefused E digest size s (n + 1) [] e
  | later (c d rest : Bytes) (n : Nat) (out : Bytes) (e : Err) : E.decompress c = .ok d → ChunksRefused E digest size rest n out e →
      ChunksRefused E digest size (c ++ digest c ++ rest) (n + 1) (d ++ out) e
  | last (c d : Bytes) (n : Nat) : E.decompress c = .ok d → ChunksRefused E digest size c (n + 2) d .indexError

/-- `x` is not unpacked: the exception is `e`, and `out` has been unpacked by then. -/
def Unreadable (E : Env μ) (inMemory : Bool) (x out : Bytes) (e : Err) : Prop :=
  (HeaderRefused x e ∧ out = []) ∨
  ∃ (offsets metadata : Bool) (checksum : String) (typesize chunkSize lastChunk nchunks maxApp : Int),
    HeaderFieldsOK 3 typesize chunkSize lastChunk nchunks maxApp checksum ∧
    x.take 32 = headerBytes 3 offsets metadata checksum typesize chunkSize lastChunk nchunks maxApp ∧
    ((metadata = true ∧ MetadataRefusedAt E inMemory x 32 e ∧ out = []) ∨
     ∃ (p : Nat) (md : Option μ), (metadata = true ∧ MetadataAt E inMemory x 32 p md ∨ metadata = false ∧ md = none ∧ p = 32) ∧
      ((offsets = true ∧ out = [] ∧
        ((nchunks < 0 ∧ e = .typeError) ∨
         (0 ≤ nchunks ∧ 2 ^ 63 ≤ 8 * (nchunks + maxApp) ∧ e = .overflowError) ∨
         (0 < nchunks ∧ 8 * (nchunks + maxApp) < 2 ^ 63 ∧ (x.length : Int) < p + 8 * nchunks ∧ e = .structError))) ∨
       ∃ q : Nat,
        (offsets = true ∧ 0 ≤ nchunks ∧ (nchunks = 0 ∨ p + 8 * nchunks ≤ x.length) ∧ 8 * (nchunks + maxApp) < 2 ^ 63 ∧
            q = p + 8 * (nchunks + maxApp) ∨
          offsets = false ∧ q = p) ∧
        ChunksRefused E (digest E checksum) (digestSize checksum) (x.drop q) nchunks.toNat out e))

end Bloscpack.Spec
