import Verif.Model.Env
/-
Model of bloscpack/abstract_io.py.
-/
namespace Bloscpack
variable {μ σ τ : Type}

/-- `header.checksum_impl`, bloscpack/headers.py:327-329 -/
def BloscpackHeader.checksumImpl (E : Env μ) (h : BloscpackHeader) : Except Err Hash :=
  checksumLookup E.hashlib h.checksum

/-- The items a generator yields, and the exception it ends with, if any. -/
structure Yields (α : Type) where
  items : List α
  stop : Option Err := none

/-- A `PlainSource`, bloscpack/abstract_io.py:30-45, once configured with (chunk_size, last_chunk, nchunks).
Simplification: the source is read independently of the sink (they are different files), so the chunks it yields
do not depend on the packing loop. -/
abbrev PlainSource := Int → Int → Int → Yields Bytes

/-- A `CompressedSink`, bloscpack/abstract_io.py:66-105, as the record of its methods on an object of type `σ` -/
structure CompressedSink (μ σ : Type) where
  configure : BloscArgs → BloscpackHeader → Proc σ Unit
  writeBloscpackHeader : Proc σ Unit
  /-- returns the metadata args as they are after the call (the method changes the caller's object) -/
  writeMetadata : Option μ → MetadataArgs → Proc σ MetadataArgs
  initOffsets : Proc σ Unit
  put : Nat → Bytes → Proc σ Unit
  finalize : Proc σ Unit

/-- `do_checksum`, bloscpack/abstract_io.py:96-105 (the `''` of the else branch is the empty byte string here) -/
def doChecksum (impl : Hash) (compressed : Bytes) : Bytes :=
  if impl.size > 0 then impl.function compressed else []

/-- the read-compress-write loop, bloscpack/abstract_io.py:156-165 -/
def packLoop (E : Env μ) (sink : CompressedSink μ σ) (a : BloscArgs) : Nat → List Bytes → Proc σ Unit
  | _, [] => Proc.pure ()
  | i, chunk :: chunks => do
    let compressed ← Proc.ofExcept (E.compress chunk a)
    sink.put i compressed
    packLoop E sink a (i + 1) chunks

/-- the header built by `pack`, bloscpack/abstract_io.py:131-144 -/
def packHeader (nchunks chunk_size last_chunk : Int) (metadata : Option μ) (a : BloscArgs) (b : BloscpackArgs) :
    Except Err BloscpackHeader := do
  let max_app_chunks ← handleMaxApps b.offsets nchunks b.max_app_chunks
  BloscpackHeader.new
    { format_version := FORMAT_VERSION, offsets := b.offsets, metadata := metadata.isSome, checksum := b.checksum,
      typesize := a.typesize, chunk_size, last_chunk, nchunks, max_app_chunks }

/-- writing the metadata, if any, bloscpack/abstract_io.py:150-152: the metadata args as left behind -/
def packMetadata (sink : CompressedSink μ σ) (metadata : Option μ) (m : MetadataArgs) : Proc σ MetadataArgs :=
  match metadata with
  | some _ => sink.writeMetadata metadata m
  | none => Proc.pure m

/-- `pack`, bloscpack/abstract_io.py:108-166. Absent optional arguments are their defaults, filled in by the
default values of the structures. Result: the metadata args as left behind. -/
def pack (E : Env μ) (source : PlainSource) (sink : CompressedSink μ σ) (nchunks chunk_size last_chunk : Int)
    (metadata : Option μ := none) (a : BloscArgs := {}) (b : BloscpackArgs := {}) (m : MetadataArgs := {}) :
    Proc σ MetadataArgs := do
  let header ← Proc.ofExcept (packHeader nchunks chunk_size last_chunk metadata a b)
  sink.configure a header
  sink.writeBloscpackHeader
  let m' ← packMetadata sink metadata m
  sink.initOffsets
  let ys := source chunk_size last_chunk nchunks
  packLoop E sink a 0 ys.items
  match ys.stop with
  | some e => Proc.raise e
  | none => do
    sink.finalize
    Proc.pure m'

/-- A `CompressedSource`, bloscpack/abstract_io.py:48-54: number of chunks, checksum and the method producing the
`i`-th `(compressed, digest)` pair -/
structure CompressedSource (σ : Type) where
  nchunks : Int
  checksumImpl : Hash
  next : Nat → Proc σ (Bytes × Option Bytes)

/-- the digest check, bloscpack/abstract_io.py:180-186: Python truthiness, so no digest or an empty one passes -/
def checkDigest (impl : Hash) (compressed : Bytes) (digest : Option Bytes) : Except Err Unit :=
  match digest with
  | none => .ok ()
  | some d => if d ≠ [] ∧ d ≠ impl.function compressed then .error .checksumMismatch else .ok ()

/-- read, decompress, write loop, bloscpack/abstract_io.py:175-196 (`fuel` chunks from index `i`); the state is the
pair of source and sink objects -/
def unpackLoop (src : CompressedSource σ) (put : Bytes → Proc τ Unit) : Nat → Nat → Proc (σ × τ) Unit
  | 0, _ => Proc.pure ()
  | fuel + 1, i => do
    let cd ← Proc.onFst (src.next i)
    Proc.ofExcept (checkDigest src.checksumImpl cd.1 cd.2)
    Proc.onSnd (put cd.1)
    unpackLoop src put fuel (i + 1)

/-- `unpack`, bloscpack/abstract_io.py:169-196 (`xrange(nchunks)` is empty when `nchunks ≤ 0`) -/
def unpack (src : CompressedSource σ) (put : Bytes → Proc τ Unit) : Proc (σ × τ) Unit :=
  unpackLoop src put src.nchunks.toNat 0

end Bloscpack
