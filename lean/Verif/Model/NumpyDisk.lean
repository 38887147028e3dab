import Verif.Model.Disk
import Verif.Model.Numpy
/-
Arrays in files on a disk that fails.
-/
namespace Bloscpack

/-- `pack_ndarray_to_file`, bloscpack/numpy_io.py:198-231, when the disk fails: `with open(filename, 'wb') as fp: … pack_ndarray(ndarray, sink, …)` -/
def packNdarrayDisk (E : Env Json) (lib : NumpyLib) (a : NdArray) (alloc : Int) (chunk_size : ChunkSizeArg) (blosc : BloscArgs)
    (b : BloscpackArgs) (m : MetadataArgs) (faults : List (Option (Nat × Nat))) : Except Err (BloscArgs × MetadataArgs) × Disk :=
  Disk.within (fun s =>
    let r := packNdarray E lib a alloc (compressedFPSink E) chunk_size blosc b m { fp := s }
    (r.1, r.2.fp)) (Disk.opened [] faults)

/-- `unpack_ndarray`, bloscpack/numpy_io.py:286-307, for files of all kinds: `unpackNdarray` with the file and the memory (and the address of the
next byte to be filled) as the state -/
def unpackNdarrayWith {ω : Type} [Readable ω] (E : Env Json) (lib : NumpyLib) (alloc : Int) (mem : Int → UInt8) :
    Proc (ω × ((Int → UInt8) × Int)) NdArray := do
  let b ← Proc.onFst (readBeginning E)
  let impl ← Proc.ofExcept (b.1.checksumImpl E)
  let a ← Proc.ofExcept (plainNumpySink lib b.2.1 alloc mem)
  unpack (compressedFPSource b.1 impl) (numpySinkPut E)
  let s ← Proc.get
  Proc.pure { a with mem := s.2.1 }

/-- `unpack_ndarray_from_file`, bloscpack/numpy_io.py:310-329, when the disk fails: the outcome, the memory and the file afterwards -/
def unpackNdarrayDisk (E : Env Json) (lib : NumpyLib) (input : Bytes) (faults : List (Option (Nat × Nat))) (alloc : Int) (mem : Int → UInt8) :
    Except Err NdArray × (Int → UInt8) × Disk :=
  let r := unpackNdarrayWith E lib alloc mem (Disk.opened input faults, (mem, alloc))
  match Disk.close r.2.1 with
  | (.ok (), d) => (r.1, r.2.2.1, d)
  | (.error e, d) => (.error e, r.2.2.1, d)

end Bloscpack
