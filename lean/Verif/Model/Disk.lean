import Verif.Model.Append
import Verif.Spec.Crash
/-
Files on a disk that fails: any `read`, `write`, `seek` or `close` of Python may raise `OSError` (the disk is full, broken, or gone).
-/
namespace Bloscpack
variable {μ σ : Type}

/-- A file that was opened with the contents `before`. `fp` is the file as the program sees it, through Python's buffers. What is on the disk
may lag behind it: by the time an operation raises `OSError`, some of the writes made so far have arrived there in full and some bytes
of the next one; the rest of what was written is lost. `faults` says which operations fail: each operation takes the first item of the
list, `none` for one that succeeds (so does every one when the list is exhausted) and `some (k, t)` for one that fails when `k` writes
and `t` bytes of the next one have arrived. `lost` is what is on the disk after a failure. -/
structure Disk where
  before : Bytes
  fp : FP
  faults : List (Option (Nat × Nat)) := []
  lost : Option Bytes := none

/-- what a file that contained `d` contains when the first `k` of the writes `log` and `t` bytes of the next one have arrived -/
def arrived (d : Bytes) (log : List (Nat × Bytes)) (k t : Nat) : Bytes :=
  match log[k]? with
  | some (p, bs) => overlay (Spec.replay d (log.take k)) p (bs.take t)
  | none => Spec.replay d log

/-- One operation on the file. Nothing works after a failure. -/
def Disk.op {α : Type} (m : Proc FP α) : Proc Disk α := fun s =>
  match s.lost, s.faults with
  | some _, _ => (.error .osError, s)
  | none, some (k, t) :: faults => (.error .osError, { s with faults, lost := some (arrived s.before (m s.fp).2.log k t) })
  | none, none :: faults => ((m s.fp).1, { s with fp := (m s.fp).2, faults })
  | none, [] => ((m s.fp).1, { s with fp := (m s.fp).2 })

instance instWritableDisk : Writable Disk where
  read n := Disk.op (fpRead n)
  seekRel n := Disk.op (fpSeekRel n)
  write bs := Disk.op (fpWrite bs)
  seek n := Disk.op (fpSeek n)
  tell s := s.fp.tell

/-- a file just opened -/
def Disk.opened (d : Bytes) (faults : List (Option (Nat × Nat))) : Disk := { before := d, fp := { data := d }, faults }

/-- what is on the disk in the end -/
def Disk.contents (s : Disk) : Bytes := s.lost.getD s.fp.data

/-- `fp.close()`, at the end of a `with` block: the buffers are flushed -/
def Disk.close : Proc Disk Unit := Disk.op (Proc.pure ())

/-- `with open(...) as fp: m`: the file is closed however the block ends; an exception of `close` replaces one of the block -/
def Disk.within {α : Type} (m : Proc Disk α) : Proc Disk α := fun s =>
  match Disk.close (m s).2 with
  | (.ok (), s') => ((m s).1, s')
  | (.error e, s') => (.error e, s')

/-- a source whose file fails after it has delivered `cut` chunks -/
def PlainSource.failsAfter (source : PlainSource) (cut : Nat) : PlainSource := fun chunk_size last_chunk nchunks =>
  let ys := source chunk_size last_chunk nchunks
  if cut < ys.items.length then { items := ys.items.take cut, stop := some .osError } else ys

/-- Packing when the disks fail: `pack_file_to_file` bloscpack/file_io.py:449-463, `pack_bytes_to_file` 545-558, as `packBytes`. `cut` is the number
of chunks that can be read from the input; `faults` is about the output. -/
def packDisk (E : Env μ) (data : Bytes) (chunk_size : ChunkSizeArg) (metadata : Option μ) (a : BloscArgs) (b : BloscpackArgs)
    (m : MetadataArgs) (cut : Nat) (faults : List (Option (Nat × Nat))) : Except Err MetadataArgs × Option Disk :=
  match calculateNchunks data.length chunk_size with
  | .error e => (.error e, none)
  | .ok (nchunks, chunk_size, last_chunk) =>
    let r := Disk.within (fun s =>
      let r := pack E (PlainSource.failsAfter (plainFPSource { data := data }) cut) (compressedFPSink E) nchunks chunk_size last_chunk metadata a b m
        { fp := s }
      (r.1, r.2.fp)) (Disk.opened [] faults)
    (r.1, some r.2)

/-- `append`, bloscpack/append.py:194-223, when the file appended to is on a failing disk -/
def appendDisk (E : Env μ) (orig new : Bytes) (args : AppendArgs) (faults : List (Option (Nat × Nat))) : Except Err Int × Disk :=
  Disk.within (appendFp E { data := new } new.length args) (Disk.opened orig faults)

/-- `growBy`, bloscpack/append.py:144-191, when reading from the file with the new content raises -/
def growByFailing [Writable σ] (E : Env μ) (h : BloscpackHeader) (impl : Hash) (offsets : List Int) (offsets_pos last : Int)
    (a : BloscArgs) (decompressed fill : Bytes) (source : Int → Int → Int → Yields Bytes) (new_size bytes_to_read : Int) : Proc σ Int := do
  let c ← Proc.ofExcept (calculateNchunks (new_size - bytes_to_read) (.int h.chunk_size))
  Proc.raiseIf (c.1 > h.max_app_chunks) .notEnoughSpace
  fpSeek last
  let compressed ← Proc.ofExcept (E.compress (decompressed ++ fill) a)
  writeCompressedChunk compressed (impl.function compressed)
  let r ← withSink h impl (repeatList [-1] c.1) (appendLoop E a 0 (source c.2.1 c.2.2 c.1).items)
  match (source c.2.1 c.2.2 c.1).stop with
  | some e => Proc.raise e
  | none => do
    let raw ← Proc.ofExcept
      { h with last_chunk := c.2.2, nchunks := h.nchunks + c.1, max_app_chunks := h.max_app_chunks - c.1 }.encode
    fpSeek 0
    fpWrite raw
    fpSeek offsets_pos
    writeOffsets (offsets ++ r.2)
    Proc.pure c.1

/-- `appendFrom`, bloscpack/append.py:62-191, when reading from the file with the new content raises: `first` and `source` as there -/
def appendFromFailing [Writable σ] (E : Env μ) (first : Int → Except Err Bytes) (source : Int → Int → Int → Int → Yields Bytes) (new_size : Int)
    (args : AppendArgs := {}) : Proc σ Int := do
  let b ← readBeginning E
  let h := b.1
  let offsets := b.2.2.2
  let impl ← Proc.ofExcept (h.checksumImpl E)
  Proc.raiseIf (offsets = []) .runtimeError
  let a ← Proc.ofExcept (args.fill h)
  let offsets_pos ← Proc.ofExcept (offsetsPos E b.2.1 b.2.2.1)
  let last ← Proc.ofExcept (lastOffset offsets)
  fpSeek last
  let r ← readCompressedChunk impl
  let decompressed ← Proc.ofExcept (E.decompress r.1)
  let bytes_to_read := h.chunk_size - decompressed.length
  if new_size ≤ bytes_to_read then do
    let fill ← Proc.ofExcept (first new_size)
    squeezeIn E h impl last a decompressed fill new_size
  else do
    let fill ← Proc.ofExcept (first bytes_to_read)
    growByFailing E h impl offsets offsets_pos last a decompressed fill (source bytes_to_read) new_size bytes_to_read

/-- `append`, bloscpack/append.py:194-223, when both disks fail: `cut` is the number of reads from the file with the new content that succeed,
`faults` is about the file appended to. Closing a file that was only read is not modelled to fail. -/
def appendBothDisks (E : Env μ) (orig new : Bytes) (args : AppendArgs) (cut : Nat) (faults : List (Option (Nat × Nat))) : Except Err Int × Disk :=
  Disk.within (appendFromFailing E
      (fun n => if cut = 0 then .error .osError else .ok (FP.read { data := new } n).1)
      (fun b => PlainSource.failsAfter (plainFPSource (FP.read { data := new } b).2) (cut - 1)) new.length args) (Disk.opened orig faults)

/-- the way the command line rewrites metadata, bloscpack/cli.py (`append` subcommand), on a failing disk -/
def rewriteDisk (E : Env μ) (orig : Bytes) (new_metadata : Option μ) (x : RewriteArgs) (faults : List (Option (Nat × Nat))) :
    Except Err Unit × Disk :=
  Disk.within (rewriteMetadata E new_metadata x) (Disk.opened orig faults)

/-- `unpack_file_from_file`, bloscpack/file_io.py:478-510, with both files on failing disks: the result and the two files. The output is closed
before the input is. -/
def unpackDisk (E : Env μ) (input : Bytes) (faultsIn faultsOut : List (Option (Nat × Nat))) : Except Err (Option μ) × Disk × Disk :=
  let m : Proc (Disk × Disk) (Option μ) := do
    let b ← Proc.onFst (readBeginning E)
    let impl ← Proc.ofExcept (b.1.checksumImpl E)
    unpack (compressedFPSource b.1 impl) (plainFPSinkPut E)
    Proc.pure b.2.1
  let r := m (Disk.opened input faultsIn, Disk.opened [] faultsOut)
  match Disk.close r.2.2, Disk.close r.2.1 with
  | (.ok (), out), (.ok (), inp) => (r.1, inp, out)
  | (.error e, out), (_, inp) => (.error e, inp, out)
  | (.ok (), out), (.error e, inp) => (.error e, inp, out)

end Bloscpack
