import Verif.Model.Headers
import Verif.Model.Pretty
/-
Model of bloscpack/args.py and bloscpack/defaults.py.
-/
namespace Bloscpack

/-! ### argument dictionaries -/

/-- `BLOSCPACK_ARGS`, bloscpack/args.py:41 -/
def bloscpackArgKeys : List String := ["offsets", "checksum", "max_app_chunks"]
/-- `BLOSC_ARGS`, bloscpack/args.py:48 -/
def bloscArgKeys : List String := ["typesize", "clevel", "shuffle", "cname"]
/-- `METADATA_ARGS`, bloscpack/args.py:55-56 -/
def metadataArgKeys : List String :=
  ["magic_format", "meta_checksum", "meta_codec", "meta_level", "max_meta_size"]

/-- `__check_args`, bloscpack/args.py:129-148. `received` are the keys of the dict (in any order, without
repetition, as for any dict). -/
def checkArgs (received expected : List String) : Except Err Unit :=
  let missing := expected.filter (fun k => !received.contains k)
  if missing.length ≠ 0 then .error .valueError
  else
    let extra := received.filter (fun k => !expected.contains k)
    if extra.length ≠ 0 then .error .valueError else .ok ()

/-! ### chunking -/

/-- the `chunk_size` argument: an int, a human readable string, anything else -/
inductive ChunkSizeArg where
  | int (i : Int)
  | str (s : List Char)
  | other
  deriving DecidableEq, Repr

/-- `DEFAULT_CHUNK_SIZE`, bloscpack/defaults.py:16 -/
def DEFAULT_CHUNK_SIZE : ChunkSizeArg := .str ['1', 'M']

/-- the conversion at bloscpack/args.py:184-186 -/
def ChunkSizeArg.value : ChunkSizeArg → Except Err PyVal
  | .str s => (reversePretty s).map PyVal.int
  | .int i => .ok (PyVal.int i)
  | .other => .ok PyVal.other

/-- `calculate_nchunks`, bloscpack/args.py:151-216: (nchunks, chunk_size, last_chunk_size) -/
def calculateNchunks (in_file_size : Int) (chunk_size : ChunkSizeArg := DEFAULT_CHUNK_SIZE) :
    Except Err (Int × Int × Int) := do
  if in_file_size < 0 then throw .valueError
  else if in_file_size = 0 then return (1, 0, 0)
  else
    let chunk_size ← chunk_size.value
    checkRange chunk_size 1 BLOSC_MAX_BUFFERSIZE
    match chunk_size with
    | .other => throw .typeError
    | .int chunk_size =>
      let chunk_size := if chunk_size > in_file_size then in_file_size else chunk_size
      let quotient := in_file_size / chunk_size
      let remainder := in_file_size % chunk_size
      let r :=
        if chunk_size = in_file_size then ((1 : Int), in_file_size, in_file_size)
        else if remainder = 0 then (quotient, chunk_size, chunk_size)
        else (quotient + 1, chunk_size, remainder)
      if r.1 > MAX_CHUNKS then throw .chunkingException
      else return r

/-! ### max_app_chunks -/

/-- the `max_app_chunks` argument: an int, a callable (returning an int or, `none`, something else), anything else.
A callable that raises is not modelled. -/
inductive MaxAppArg where
  | int (i : Int)
  | callable (f : Int → Option Int)
  | other

/-- `DEFAULT_MAX_APP_CHUNKS`, bloscpack/defaults.py:14 -/
def DEFAULT_MAX_APP_CHUNKS : MaxAppArg := .callable (fun x => some (10 * x))

/-- evaluation of the argument, bloscpack/args.py:264-281 -/
def MaxAppArg.eval (a : MaxAppArg) (nchunks : Int) : Except Err Int :=
  match a with
  | .callable f =>
    match f nchunks with
    | none => .error .valueError
    | some m => if m < 0 then .error .valueError else .ok m
  | .int m => do
    checkRange (.int m) 0 MAX_CHUNKS
    return m
  | .other => .error .typeError

/-- `_handle_max_apps`, bloscpack/args.py:219-293 -/
def handleMaxApps (offsets : Bool) (nchunks : Int) (max_app_chunks : MaxAppArg) : Except Err Int := do
  checkRange (.int nchunks) (-1) MAX_CHUNKS
  if offsets = true ∧ nchunks ≠ -1 then
    let m ← max_app_chunks.eval nchunks
    if nchunks + m > MAX_CHUNKS then return MAX_CHUNKS - nchunks
    else return m
  else return 0

/-! ### argument objects -/

/-- `BloscArgs`, bloscpack/args.py:296-334, defaults bloscpack/defaults.py:6-9. `shuffle` is the integer blosc gets
(`True` = 1). -/
structure BloscArgs where
  typesize : Int := 8
  clevel : Int := 7
  shuffle : Int := 1
  cname : String := "blosclz"
  deriving DecidableEq, Repr

/-- `BloscpackArgs`, bloscpack/args.py:337-370, defaults bloscpack/defaults.py:12-14. -/
structure BloscpackArgs where
  offsets : Bool := true
  checksum : String := "adler32"
  max_app_chunks : MaxAppArg := DEFAULT_MAX_APP_CHUNKS

/-- the constructor's treatment of Python `None` as checksum, bloscpack/args.py:355-356 -/
def BloscpackArgs.new (offsets : Bool) (checksum : Option String) (max_app_chunks : MaxAppArg) : BloscpackArgs :=
  { offsets, checksum := checksum.getD "None", max_app_chunks }

/-- the `max_meta_size` argument, bloscpack/args.py:426-432 (a callable is assumed to return an int) -/
inductive MaxMetaArg where
  | int (i : Int)
  | callable (f : Int → Int)
  | other

/-- `MetadataArgs`, bloscpack/args.py:373-440, defaults bloscpack/defaults.py:19-23; `b'JSON'` is [74,83,79,78] -/
structure MetadataArgs where
  magic_format : Bytes := [74, 83, 79, 78]
  meta_checksum : String := "adler32"
  meta_codec : String := "zlib"
  meta_level : Int := 6
  max_meta_size : MaxMetaArg := .callable (fun x => 10 * x)

/-- `should_compress`, bloscpack/args.py:411-413 -/
def MetadataArgs.shouldCompress (a : MetadataArgs) : Bool := a.meta_codec != "None"

/-- `nullify_codec`, bloscpack/args.py:415-416 -/
def MetadataArgs.nullifyCodec (a : MetadataArgs) : MetadataArgs := { a with meta_codec := "None" }

/-- `effective_max_meta_size`, bloscpack/args.py:426-432: if the attribute is neither callable nor int, the local
variable is never assigned -/
def MetadataArgs.effectiveMaxMetaSize (a : MetadataArgs) (meta_size : Int) : Except Err Int :=
  match a.max_meta_size with
  | .callable f => .ok (f meta_size)
  | .int i => .ok i
  | .other => .error .unboundLocalError

end Bloscpack
