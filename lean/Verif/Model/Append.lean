import Verif.Model.FileIO
/-
Model of bloscpack/append.py.
-/
namespace Bloscpack
variable {μ σ : Type}

/-- the `blosc_args` dict of `append_fp`: any value may be `None`. Simplification: the dict has exactly these keys
(`_check_blosc_args`, bloscpack/append.py:110, then passes). -/
structure AppendArgs where
  typesize : Option Int := none
  clevel : Option Int := none
  shuffle : Option Int := none
  cname : Option String := none
  deriving DecidableEq, Repr

/-- filling in the `None`s, bloscpack/append.py:95-110 -/
def AppendArgs.fill (x : AppendArgs) (h : BloscpackHeader) : Except Err BloscArgs := do
  let typesize ← (match x.typesize with
    | none => if h.typesize = -1 then .error .nonUniformTypesize else .ok h.typesize
    | some t => .ok t : Except Err Int)
  checkArgs bloscArgKeys bloscArgKeys
  return { typesize, clevel := x.clevel.getD 7, shuffle := x.shuffle.getD 1, cname := x.cname.getD "blosclz" }

/-- `offsets_pos`, bloscpack/append.py:111-114. The condition is `metadata is not None`, not the header's metadata
flag. -/
def offsetsPos (E : Env μ) (metadata : Option μ) (mh : Option MetadataHeader) : Except Err Int :=
  match metadata with
  | none => .ok BLOSCPACK_HEADER_LENGTH
  | some _ =>
    match mh with
    | none => .error .typeError
    | some mh => do
      let impl ← checksumLookup E.hashlib mh.meta_checksum
      return BLOSCPACK_HEADER_LENGTH + (METADATA_HEADER_LENGTH + mh.max_meta_size + impl.size)

/-- `offsets[-1]` -/
def lastOffset (offsets : List Int) : Except Err Int :=
  match offsets.getLast? with
  | some o => .ok o
  | none => .error .indexError

/-- the read, compress, write loop of `append_fp`, bloscpack/append.py:172-177 -/
def appendLoop [Writable σ] (E : Env μ) (a : BloscArgs) : Nat → List Bytes → Proc (FPSinkOf σ) Unit
  | _, [] => Proc.pure ()
  | i, chunk :: chunks => do
    let compressed ← Proc.ofExcept (E.compress chunk a)
    FPSink.put i compressed
    appendLoop E a (i + 1) chunks

/-- run a sink procedure on a file: `CompressedFPSink(original_fp)`, keeping the sink's offsets -/
def withSink {α : Type} (h : BloscpackHeader) (impl : Hash) (storage : List Int) (m : Proc (FPSinkOf σ) α) :
    Proc σ (α × List Int) := fun fp =>
  match m { fp := fp, header := h, impl := impl, offset_storage := storage } with
  | (.ok a, s) => (.ok (a, s.offset_storage), s.fp)
  | (.error e, s) => (.error e, s.fp)

/-- the special case of `append_fp`, bloscpack/append.py:125-142: squeeze the data into the last chunk; `fill_up` is what was read -/
def squeezeIn [Writable σ] (E : Env μ) (h : BloscpackHeader) (impl : Hash) (last : Int) (a : BloscArgs)
    (decompressed fill_up : Bytes) (new_size : Int) : Proc σ Int := do
  fpSeek last
  let compressed ← Proc.ofExcept (E.compress (decompressed ++ fill_up) a)
  writeCompressedChunk compressed (impl.function compressed)
  let raw ← Proc.ofExcept { h with last_chunk := h.last_chunk + new_size }.encode
  fpSeek 0
  fpWrite raw
  Proc.pure 0

/-- the general case of `append_fp`, bloscpack/append.py:144-191: fill up the last chunk with what was read first, append new ones
with what the `PlainFPSource` delivers for the chunk size, the size of the last chunk, and the number of chunks -/
def growBy [Writable σ] (E : Env μ) (h : BloscpackHeader) (impl : Hash) (offsets : List Int) (offsets_pos last : Int)
    (a : BloscArgs) (decompressed fill : Bytes) (source : Int → Int → Int → List Bytes) (new_size bytes_to_read : Int) : Proc σ Int := do
  let c ← Proc.ofExcept (calculateNchunks (new_size - bytes_to_read) (.int h.chunk_size))
  Proc.raiseIf (c.1 > h.max_app_chunks) .notEnoughSpace
  fpSeek last
  let compressed ← Proc.ofExcept (E.compress (decompressed ++ fill) a)
  writeCompressedChunk compressed (impl.function compressed)
  let r ← withSink h impl (repeatList [-1] c.1) (appendLoop E a 0 (source c.2.1 c.2.2 c.1))
  let raw ← Proc.ofExcept
    { h with last_chunk := c.2.2, nchunks := h.nchunks + c.1, max_app_chunks := h.max_app_chunks - c.1 }.encode
  fpSeek 0
  fpWrite raw
  fpSeek offsets_pos
  writeOffsets (offsets ++ r.2)
  Proc.pure c.1

/-- `append_fp`, bloscpack/append.py:62-191, on the original file. `first n` is what the first read, of `n` bytes, from the file with
the new content delivers, `source b` what the reads after a first read of `b` bytes deliver. -/
def appendFrom [Writable σ] (E : Env μ) (first : Int → Bytes) (source : Int → Int → Int → Int → List Bytes) (new_size : Int)
    (args : AppendArgs := {}) : Proc σ Int := do
  let b ← readBeginning E
  let h := b.1
  let offsets := b.2.2.2
  let impl ← Proc.ofExcept (h.checksumImpl E)
  Proc.raiseIf (offsets = []) .runtimeError
  let a ← Proc.ofExcept (args.fill h)
  let offsets_pos ← Proc.ofExcept (offsetsPos E b.2.1 b.2.2.1)
  let last ← Proc.ofExcept (lastOffset offsets)
  fpSeek last
  let r ← readCompressedChunk impl
  let decompressed ← Proc.ofExcept (E.decompress r.1)
  let bytes_to_read := h.chunk_size - decompressed.length
  if new_size ≤ bytes_to_read then
    squeezeIn E h impl last a decompressed (first new_size) new_size
  else
    growBy E h impl offsets offsets_pos last a decompressed (first bytes_to_read) (source bytes_to_read) new_size bytes_to_read

/-- `append_fp`, bloscpack/append.py:62-191, on the original file; `new` is the file with the new content, which nobody changes in
the meantime. -/
def appendFp [Writable σ] (E : Env μ) (new : FP) (new_size : Int) (args : AppendArgs := {}) : Proc σ Int :=
  appendFrom E (fun n => (new.read n).1) (fun b cs lc k => (plainFPSource (new.read b).2 cs lc k).items) new_size args

/-- What the caller's `blosc_args` dict holds after `append_fp`, bloscpack/append.py:85-110, whether or not the rest of it fails: the
`None`s are replaced in the caller's object, once the beginning of the file has been read, the checksum is known and the file
has offsets. -/
def AppendArgs.after (E : Env μ) (args : AppendArgs) (orig : FP) : AppendArgs :=
  match readBeginning E orig with
  | (.error _, _) => args
  | (.ok (h, _, _, offsets), _) =>
    match h.checksumImpl E with
    | .error _ => args
    | .ok _ =>
      if offsets = [] then args
      else if args.typesize = none ∧ h.typesize = -1 then args
      else
        { typesize := some (args.typesize.getD h.typesize), clevel := some (args.clevel.getD 7), shuffle := some (args.shuffle.getD 1),
          cname := some (args.cname.getD "blosclz") }

/-- `append`, bloscpack/append.py:194-223: contents of the file appended to, and the new content. The verbose
message at the end divides by the size of the new file. -/
def appendFile (E : Env μ) (orig new : Bytes) (args : AppendArgs := {}) : Except Err Unit × FP :=
  match appendFp E { data := new } new.length args { data := orig } with
  | (.error e, fp) => (.error e, fp)
  | (.ok _, fp) => if new.length = 0 then (.error .zeroDivisionError, fp) else (.ok (), fp)

/-! ### metadata rewrite -/

/-- `_seek_to_metadata`, bloscpack/append.py:226-249 -/
def seekToMetadata [Writable σ] : Proc σ Nat := do
  let h ← readBloscpackHeader
  Proc.raiseIf (h.metadata = false) .noMetadataFound
  fpTell

/-- the keyword arguments of `_rewrite_metadata_fp`, defaults at bloscpack/append.py:252-254 -/
structure RewriteArgs where
  magic_format : Option Bytes := none
  checksum : Option String := none
  codec : Option String := some "zlib"
  level : Option Int := some 6
  deriving DecidableEq, Repr

/-- `_recreate_metadata`, bloscpack/append.py:284-348 -/
def recreateMetadata (E : Env μ) (old : MetadataHeader) (x : RewriteArgs) : Except Err MetadataArgs := do
  let m : MetadataArgs :=
    { magic_format := old.magic_format, meta_checksum := old.meta_checksum, meta_codec := old.meta_codec,
      meta_level := old.meta_level, max_meta_size := .int old.max_meta_size }
  let m ← (match x.magic_format with
    | none => .ok m
    | some f => do
      checkValidSerializer f
      return { m with magic_format := f } : Except Err MetadataArgs)
  let m ← (match x.checksum with
    | none => .ok m
    | some c => do
      checkValidChecksum c
      let o ← checksumLookup E.hashlib old.meta_checksum
      let n ← checksumLookup E.hashlib c
      if o.size ≠ n.size then .error .checksumLengthMismatch
      else .ok { m with meta_checksum := c } : Except Err MetadataArgs)
  let m ← (match x.codec with
    | none => .ok m
    | some c => do
      checkValidCodec c
      return { m with meta_codec := c } : Except Err MetadataArgs)
  match x.level with
  | none => .ok m
  | some l => do
    checkRange (.int l) 0 MAX_CLEVEL
    return { m with meta_level := l }

/-- `_rewrite_metadata_fp`, bloscpack/append.py:252-281 -/
def rewriteMetadataFp [Writable σ] (E : Env μ) (new_metadata : Option μ) (x : RewriteArgs := {}) : Proc σ Unit := do
  let current_pos ← fpTell
  let old ← readMetadata E
  Proc.raiseIf (E.metaEq old.1 new_metadata = true) .noChangeInMetadata
  let m ← Proc.ofExcept (recreateMetadata E old.2 x)
  fpSeek current_pos
  let _ ← writeMetadata E new_metadata m
  Proc.pure ()

/-- the way the command line uses the two functions, bloscpack/cli.py (`append` subcommand): open the file, seek to
the metadata, rewrite it -/
def rewriteMetadata [Writable σ] (E : Env μ) (new_metadata : Option μ) (x : RewriteArgs := {}) : Proc σ Unit := do
  let _ ← seekToMetadata
  rewriteMetadataFp E new_metadata x

end Bloscpack
