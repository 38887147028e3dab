import Verif.Spec.Format
import Verif.Spec.Objects
import Verif.Model.AbstractIO
/-
Bloscpack files as documented in README.rst: the parts of a file, its bytes, and which files are readable and
conforming. Nothing here refers to the functions that read or write files.
-/
namespace Bloscpack
variable {μ : Type}

/-- the stored bytes hold the metadata: as they are, or compressed with zlib -/
def Spec.MetaHolds (E : Env μ) (codec : String) (body : Bytes) (m : Option μ) : Prop :=
  (codec = "None" ∧ E.loads body = .ok m) ∨
  (codec = "zlib" ∧ ∃ raw, E.zdecompress body = .ok raw ∧ E.loads raw = .ok m)

/-- A metadata section: its header, the stored bytes, and the metadata it holds. -/
structure Section (μ : Type) where
  header : MetadataHeader
  body : Bytes
  metadata : Option μ

/-- the digest of a metadata section -/
def Section.impl (E : Env μ) (s : Section μ) : Hash :=
  match checksumLookup E.hashlib s.header.meta_checksum with
  | .ok h => h
  | .error _ => ⟨"None", 0, fun _ => []⟩

/-- preallocated bytes -/
def Section.prealloc (s : Section μ) : Nat := (s.header.max_meta_size - s.header.meta_comp_size).toNat

/-- bytes of a section (README, "Description of the metadata section") -/
def Section.bytes (E : Env μ) (s : Section μ) : Bytes :=
  s.header.bytes ++ (s.body ++ (List.replicate s.prealloc 0 ++ (s.impl E).function s.body))

/-- a section as the code writes them -/
structure Section.Valid (E : Env μ) (s : Section μ) : Prop where
  ok : s.header.OK
  magic : s.header.magic_format = [74, 83, 79, 78]
  user : s.header.user_codec = []
  size : s.header.meta_comp_size = s.body.length
  fits : s.header.meta_comp_size ≤ s.header.max_meta_size
  load : Spec.MetaHolds E s.header.meta_codec s.body s.metadata

/-- number of bytes of the offsets section announced by a header -/
def offsetsLen (h : BloscpackHeader) : Nat := if h.offsets then 8 * (h.nchunks + h.max_app_chunks).toNat else 0

/-- A file: header, metadata section, raw offsets section, chunks as (compressed, plain) pairs, and whatever follows
the last chunk. -/
structure File (μ : Type) where
  header : BloscpackHeader
  sec : Option (Section μ)
  offsets : Bytes
  chunks : List (Bytes × Bytes)
  junk : Bytes

/-- checksum of the chunks -/
def File.impl (E : Env μ) (F : File μ) : Hash :=
  match F.header.checksumImpl E with
  | .ok h => h
  | .error _ => ⟨"None", 0, fun _ => []⟩

def File.secBytes (E : Env μ) (F : File μ) : Bytes :=
  match F.sec with
  | none => []
  | some s => s.bytes E

/-- everything before the chunks -/
def File.front (E : Env μ) (F : File μ) : Bytes := F.header.bytes ++ (F.secBytes E ++ F.offsets)

/-- the chunks -/
def File.body (E : Env μ) (F : File μ) : Bytes := Spec.records (F.impl E).function (F.chunks.map (·.1))

def File.bytes (E : Env μ) (F : File μ) : Bytes := F.front E ++ (F.body E ++ F.junk)

/-- the data held by a file -/
def File.data (F : File μ) : Bytes := (F.chunks.map (·.2)).flatten

/-- the metadata held by a file -/
def File.metadata (F : File μ) : Option μ :=
  match F.sec with
  | none => none
  | some s => s.metadata

/-- everything the readers check, except that chunks may still be missing -/
structure File.Pre (E : Env μ) (F : File μ) : Prop where
  ok : F.header.OK
  version : F.header.format_version = 3
  meta_flag : F.header.metadata = F.sec.isSome
  sec_ok : ∀ s, F.sec = some s → s.Valid E
  offsets_len : F.offsets.length = offsetsLen F.header
  offsets_small : offsetsLen F.header < 2 ^ 63
  nchunks_le : (F.chunks.length : Int) ≤ F.header.nchunks
  chunks_ok : ∀ p ∈ F.chunks, E.decompress p.1 = .ok p.2

/-- readable files: everything the readers check -/
structure File.Valid (E : Env μ) (F : File μ) : Prop extends File.Pre E F where
  nchunks : F.header.nchunks = F.chunks.length


/-- conforming files: what packing, appending and rewriting metadata produce. Chunk lengths agree with the header and
the offsets section lists the positions of the chunks, followed by -1 for the reserved entries. -/
structure File.Conforming (E : Env μ) (F : File μ) : Prop extends File.Valid E F where
  lengths : ∃ init p, F.chunks = init ++ [p] ∧ (∀ q ∈ init, (q.2.length : Int) = F.header.chunk_size) ∧
    (p.2.length : Int) = F.header.last_chunk
  sizes : (1 ≤ F.header.last_chunk ∧ F.header.last_chunk ≤ F.header.chunk_size) ∨
    (F.header.nchunks = 1 ∧ F.header.chunk_size = 0 ∧ F.header.last_chunk = 0)
  table : F.header.offsets = true → F.offsets = Spec.int64s
    (Spec.positions (F.impl E).function (F.front E).length (F.chunks.map (·.1)) ++
      List.replicate F.header.max_app_chunks.toNat (-1))
  reach : F.header.offsets = true →
    ∀ o ∈ Spec.positions (F.impl E).function (F.front E).length (F.chunks.map (·.1)), o < 2 ^ 63

/-- Files with a right offsets section: it lists the positions of the chunks, followed by -1 for the reserved entries. The chunks may have any
lengths, and the header may say that chunk size or size of the last chunk are unknown. -/
structure File.Located (E : Env μ) (F : File μ) : Prop extends File.Valid E F where
  table : F.header.offsets = true → F.offsets = Spec.int64s
    (Spec.positions (F.impl E).function (F.front E).length (F.chunks.map (·.1)) ++
      List.replicate F.header.max_app_chunks.toNat (-1))
  reach : F.header.offsets = true →
    ∀ o ∈ Spec.positions (F.impl E).function (F.front E).length (F.chunks.map (·.1)), o < 2 ^ 63

theorem File.Conforming.located {E : Env μ} {F : File μ} (hc : F.Conforming E) : F.Located E := ⟨hc.toValid, hc.table, hc.reach⟩

/-- The metadata section, if there is one, does not hold `null`. Packing never writes such a section; rewriting the
metadata to `None` does, and `append_fp`, which looks at the metadata to find out whether there is a metadata section,
damages such files (C51). -/
def File.NoNull (F : File μ) : Prop := F.metadata = none → F.sec = none

end Bloscpack
