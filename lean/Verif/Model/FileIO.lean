import Verif.Model.AbstractIO
/-
Model of bloscpack/file_io.py.
-/
namespace Bloscpack
variable {μ σ : Type}

/-! ### metadata section -/

/-- What `_write_metadata` decides before writing anything, bloscpack/file_io.py:84-128: the raw header, the
metadata bytes, the number of preallocated bytes, the digest, and the metadata args after a possible
`nullify_codec`. -/
structure MetaSection where
  header : Bytes
  body : Bytes
  prealloc : Nat
  digest : Bytes
  digestSize : Nat
  args : MetadataArgs

/-- bloscpack/file_io.py:87-145 without the writes. The check of line 84 is on the keys of the args object, which are
always the right ones for a `MetadataArgs`. -/
def prepareMetadata (E : Env μ) (metadata : Option μ) (args : MetadataArgs) : Except Err MetaSection := do
  checkArgs metadataArgKeys metadataArgKeys
  serializerLookup args.magic_format
  let s ← E.dumps metadata
  let meta_size : Int := s.length
  let raw := encodeUtf8 s
  let (body, meta_comp_size, args) ← (do
    if args.shouldCompress then
      let comp ← codecCompress E args.meta_codec raw args.meta_level
      let meta_comp_size : Int := comp.length
      if meta_size < meta_comp_size then
        return (raw, meta_size, args.nullifyCodec)
      else
        return (comp, meta_comp_size, args)
    else
      return (raw, meta_size, args) : Except Err (Bytes × Int × MetadataArgs))
  let max_meta_size ← args.effectiveMaxMetaSize meta_size
  if meta_comp_size > max_meta_size then throw .metadataSectionTooSmall
  let h ← MetadataHeader.new
    { magic_format := args.magic_format, meta_options := createMetadataOptions, meta_checksum := args.meta_checksum,
      meta_codec := args.meta_codec, meta_level := args.meta_level, meta_size, max_meta_size, meta_comp_size,
      user_codec := [] }
  let header ← h.encode
  let (digest, digestSize) ← (if args.meta_checksum ≠ "None" then do
      let impl ← checksumLookup E.hashlib args.meta_checksum
      return (impl.function body, impl.size)
    else return ([], 0) : Except Err (Bytes × Nat))
  return ⟨header, body, (max_meta_size - meta_comp_size).toNat, digest, digestSize, args⟩

/-- `for i in xrange(prealloc): output_fp.write(b'\x00')`, bloscpack/file_io.py:132-133 -/
def writeZeros [Writable σ] : Nat → Proc σ Unit
  | 0 => Proc.pure ()
  | n + 1 => do
    fpWrite [0]
    writeZeros n

/-- `_write_metadata`, bloscpack/file_io.py:60-145: the total size of the section and the metadata args as left
behind. (The args changed by a failing call are not visible in the model.) -/
def writeMetadata [Writable σ] (E : Env μ) (metadata : Option μ) (args : MetadataArgs) : Proc σ (Nat × MetadataArgs) := do
  let s ← Proc.ofExcept (prepareMetadata E metadata args)
  fpWrite s.header
  fpWrite s.body
  writeZeros s.prealloc
  if s.args.meta_checksum ≠ "None" then do
    fpWrite s.digest
    Proc.pure (METADATA_HEADER_LENGTH + s.body.length + s.prealloc + s.digestSize, s.args)
  else
    Proc.pure (METADATA_HEADER_LENGTH + s.body.length + s.prealloc, s.args)

/-- `_read_bloscpack_header`, bloscpack/file_io.py:148-178 -/
def readBloscpackHeader [Readable σ] : Proc σ BloscpackHeader := do
  let raw ← fpRead BLOSCPACK_HEADER_LENGTH
  let h ← Proc.ofExcept (BloscpackHeader.decode raw)
  Proc.raiseIf (FORMAT_VERSION ≠ h.format_version) .formatVersionMismatch
  Proc.pure h

/-- bloscpack/file_io.py:223-234: decompress and parse -/
def loadMetadata (E : Env μ) (h : MetadataHeader) (body : Bytes) : Except Err (Option μ) := do
  let raw ← (if h.meta_codec ≠ "None" then codecDecompress E h.meta_codec body else .ok body)
  serializerLookup h.magic_format
  E.loads raw

/-- `_read_metadata`, bloscpack/file_io.py:181-234 -/
def readMetadata [Readable σ] (E : Env μ) : Proc σ (Option μ × MetadataHeader) := do
  let raw ← fpRead METADATA_HEADER_LENGTH
  let h ← Proc.ofExcept (MetadataHeader.decode raw)
  let body ← fpRead h.meta_comp_size
  fpSeekRel (h.max_meta_size - h.meta_comp_size)
  if h.meta_checksum ≠ "None" then do
    let impl ← Proc.ofExcept (checksumLookup E.hashlib h.meta_checksum)
    let expected ← fpRead impl.size
    Proc.raiseIf (impl.function body ≠ expected) .checksumMismatch
    let m ← Proc.ofExcept (loadMetadata E h body)
    Proc.pure (m, h)
  else do
    let m ← Proc.ofExcept (loadMetadata E h body)
    Proc.pure (m, h)

/-! ### offsets -/

/-- `[decode_int64(raw[j-8:j]) for j in xrange(8, n*8+1, 8)]`, bloscpack/file_io.py:260-261 -/
def decodeOffsets (raw : Bytes) : Nat → Except Err (List Int)
  | 0 => .ok []
  | n + 1 => do
    let o ← decodeInt64 (raw.take 8)
    let os ← decodeOffsets (raw.drop 8) n
    return o :: os

/-- `_read_offsets`, bloscpack/file_io.py:237-265. `8 * None` raises `TypeError`. `read` raises `OverflowError` if its argument does not fit
into 63 bits; this is the only call of `read` where that can happen. -/
def readOffsets [Readable σ] (h : BloscpackHeader) : Proc σ (List Int) :=
  if h.offsets then
    match h.totalProspectiveChunks with
    | none => Proc.raise .typeError
    | some total => do
      Proc.raiseIf (8 * total ≥ 2 ^ 63) .overflowError
      let raw ← fpRead (8 * total)
      Proc.ofExcept (decodeOffsets raw h.nchunks.toNat)
  else Proc.pure []

/-- `_read_beginning`, bloscpack/file_io.py:268-289 -/
def readBeginning [Readable σ] (E : Env μ) : Proc σ (BloscpackHeader × Option μ × Option MetadataHeader × List Int) := do
  let h ← readBloscpackHeader
  let mm ← (if h.metadata then do
      let r ← readMetadata E
      Proc.pure (r.1, some r.2)
    else Proc.pure (none, none) : Proc σ (Option μ × Option MetadataHeader))
  let offsets ← readOffsets h
  Proc.pure (h, mm.1, mm.2, offsets)

/-- `b"".join([encode_int64(i) for i in offsets])`, bloscpack/file_io.py:296 -/
def encodeOffsets : List Int → Except Err Bytes
  | [] => .ok []
  | o :: os => do
    let b ← encodeInt64 o
    let bs ← encodeOffsets os
    return b ++ bs

/-- `_write_offsets`, bloscpack/file_io.py:292-298 -/
def writeOffsets [Writable σ] (offsets : List Int) : Proc σ Unit := do
  let raw ← Proc.ofExcept (encodeOffsets offsets)
  fpWrite raw

/-! ### chunks -/

/-- `_read_compressed_chunk_fp`, bloscpack/file_io.py:301-334 -/
def readCompressedChunk [Readable σ] (impl : Hash) : Proc σ (Bytes × BloscHeader × Option Bytes) := do
  let raw ← fpRead BLOSC_HEADER_LENGTH
  let bh ← Proc.ofExcept (decodeBloscHeader raw)
  fpSeekRel (-(BLOSC_HEADER_LENGTH : Int))
  let compressed ← fpRead bh.ctbytes
  if impl.size > 0 then do
    let digest ← fpRead impl.size
    Proc.pure (compressed, bh, some digest)
  else Proc.pure (compressed, bh, none)

/-- `_write_compressed_chunk`, bloscpack/file_io.py:337-340 -/
def writeCompressedChunk [Writable σ] (compressed digest : Bytes) : Proc σ Unit := do
  fpWrite compressed
  if digest.length > 0 then fpWrite digest else Proc.pure ()

/-- successive `read`s of the given sizes -/
def readMany : List Int → FP → List Bytes × FP
  | [], fp => ([], fp)
  | n :: ns, fp =>
    let (b, fp1) := fp.read n
    let (bs, fp2) := readMany ns fp1
    (b :: bs, fp2)

/-- `PlainFPSource`, bloscpack/file_io.py:343-353 -/
def plainFPSource (fp : FP) : PlainSource := fun chunk_size last_chunk nchunks =>
  { items := (readMany (List.replicate (nchunks - 1).toNat chunk_size ++ [last_chunk]) fp).1 }

/-- `CompressedFPSource.__iter__`, bloscpack/file_io.py:366-369 -/
def compressedFPSource [Readable σ] (h : BloscpackHeader) (impl : Hash) : CompressedSource σ where
  nchunks := h.nchunks
  checksumImpl := impl
  next := fun _ => do
    let r ← readCompressedChunk impl
    Proc.pure (r.1, r.2.2)

/-- `PlainFPSink.put`, bloscpack/file_io.py:378-381 -/
def plainFPSinkPut [Writable σ] (E : Env μ) (compressed : Bytes) : Proc σ Unit := do
  let d ← Proc.ofExcept (E.decompress compressed)
  fpWrite d

/-- `CompressedFPSink`, bloscpack/file_io.py:384-388 and the attributes set by `configure`,
bloscpack/abstract_io.py:70-74, and `init_offsets` -/
structure FPSinkOf (σ : Type) where
  fp : σ
  meta_total : Nat := 0
  header : BloscpackHeader := ⟨3, false, false, "None", 0, -1, -1, -1, 0⟩
  impl : Hash := ⟨"None", 0, fun _ => []⟩
  offset_storage : List Int := []

abbrev FPSink := FPSinkOf FP

/-- run a procedure on the sink's file -/
def FPSink.onFP {α : Type} (m : Proc σ α) : Proc (FPSinkOf σ) α := fun s => ((m s.fp).1, { s with fp := (m s.fp).2 })

/-- `l[i] = v` -/
def setItem (l : List Int) (i : Nat) (v : Int) : Except Err (List Int) :=
  if i < l.length then .ok (l.set i v) else .error .indexError

/-- `CompressedFPSink.put`, bloscpack/file_io.py:411-417 -/
def FPSink.put [Writable σ] (i : Nat) (compressed : Bytes) : Proc (FPSinkOf σ) Unit := do
  let s ← Proc.get
  let offset := Writable.tell s.fp
  FPSink.onFP (writeCompressedChunk compressed (doChecksum s.impl compressed))
  if s.header.offsets then do
    let os ← Proc.ofExcept (setItem s.offset_storage i offset)
    Proc.modify (fun s => { s with offset_storage := os })
  else Proc.pure ()

/-- `CompressedFPSink.init_offsets`, bloscpack/file_io.py:399-404. A byte string whose length does not fit into 63 bits cannot be created, even
with unlimited memory: `OverflowError`. -/
def FPSink.initOffsets [Writable σ] : Proc (FPSinkOf σ) Unit := do
  let s ← Proc.get
  if s.header.offsets then
    match s.header.totalProspectiveChunks with
    | none => Proc.raise .typeError
    | some total => do
      Proc.modify (fun s => { s with offset_storage := repeatList [-1] s.header.nchunks })
      let minusOne ← Proc.ofExcept (encodeInt64 (-1))
      Proc.raiseIf (8 * total ≥ 2 ^ 63) .overflowError
      FPSink.onFP (fpWrite (repeatList minusOne total))
  else Proc.pure ()

/-- `CompressedFPSink.finalize`, bloscpack/file_io.py:406-409 -/
def FPSink.finalize [Writable σ] : Proc (FPSinkOf σ) Unit := do
  let s ← Proc.get
  if s.header.offsets then do
    FPSink.onFP (fpSeek (BLOSCPACK_HEADER_LENGTH + s.meta_total))
    FPSink.onFP (writeOffsets s.offset_storage)
  else Proc.pure ()

/-- `CompressedFPSink`, bloscpack/file_io.py:384-417 -/
def compressedFPSink [Writable σ] (E : Env μ) : CompressedSink μ (FPSinkOf σ) where
  configure := fun _ h => do
    let impl ← Proc.ofExcept (h.checksumImpl E)
    Proc.modify (fun s => { s with header := h, impl := impl })
  writeBloscpackHeader := do
    let s ← Proc.get
    let raw ← Proc.ofExcept s.header.encode
    FPSink.onFP (fpWrite raw)
  writeMetadata := fun metadata args => do
    let r ← FPSink.onFP (writeMetadata E metadata args)
    Proc.modify (fun s => { s with meta_total := s.meta_total + r.1 })
    Proc.pure r.2
  initOffsets := FPSink.initOffsets
  put := FPSink.put
  finalize := FPSink.finalize

/-! ### entry points -/

/-- The part the packing entry points have in common: compute the chunking, then `pack` from an in-memory or file
source to an empty output: `pack_file_to_file` bloscpack/file_io.py:449-463, `pack_bytes_to_file` 545-558,
`pack_bytes_to_bytes` 643-656. The result carries the output file even when an exception is raised (`none`: the
output was not opened yet). The entry points themselves are in EntryPoints.lean. -/
def packBytes (E : Env μ) (data : Bytes) (chunk_size : ChunkSizeArg := DEFAULT_CHUNK_SIZE) (metadata : Option μ := none)
    (a : BloscArgs := {}) (b : BloscpackArgs := {}) (m : MetadataArgs := {}) :
    Except Err MetadataArgs × Option FP :=
  match calculateNchunks data.length chunk_size with
  | .error e => (.error e, none)
  | .ok (nchunks, chunk_size, last_chunk) =>
    let r := pack E (plainFPSource { data := data }) (compressedFPSink E) nchunks chunk_size last_chunk metadata a b m
      { fp := { data := [] } }
    (r.1, some r.2.fp)

/-- `CompressedFPSource(fp)` followed by `unpack` into an empty output file: the body of
`unpack_file_from_file` bloscpack/file_io.py:478-510, `unpack_bytes_from_file` 573-601 and
`unpack_bytes_from_bytes` 666-693. The pair's second component is the output file in every case
(`unpack_file_from_file` has already created it when parsing fails). -/
def unpackFP [Readable σ] (E : Env μ) (input : σ) : Except Err (Option μ) × Bytes :=
  match readBeginning E input with
  | (.error e, _) => (.error e, [])
  | (.ok (h, metadata, _, _), fp) =>
    match h.checksumImpl E with
    | .error e => (.error e, [])
    | .ok impl =>
      let r := unpack (compressedFPSource h impl) (plainFPSinkPut E) (fp, { data := [] })
      (r.1.map (fun _ => metadata), r.2.2.data)

/-- unpacking of a file on disk with the given contents, `unpack_file_from_file` bloscpack/file_io.py:478-510, `unpack_bytes_from_file`
573-601 -/
def unpackFrom (E : Env μ) (input : Bytes) : Except Err (Option μ) × Bytes := unpackFP E ({ data := input } : FP)

end Bloscpack
