import Verif.Model.Numpy
/-
Packing of an array while other threads change its elements.
-/
namespace Bloscpack

/-- `PlainNumpySource` (bloscpack/numpy_io.py:60-95) of an array whose memory changes meanwhile: `mems i` is the memory when chunk `i` is compressed.
The copy of an array that is neither C nor Fortran contiguous (line 74) is known to the source only, and is made when the array is as in `a`.
Simplification: one call of `blosc.compress_ptr` (lines 39-41) sees one state of the memory (python-blosc holds the lock of the interpreter meanwhile,
unless it is told not to), and so does the copy. -/
def changingNumpySource (a : NdArray) (alloc : Int) (mems : Nat → Int → UInt8) : PlainSource := fun chunk_size last_chunk nchunks =>
  match numpyPairs (sourceArray a alloc).ptr (sourceArray a alloc).itemsize chunk_size last_chunk nchunks with
  | .ok pairs =>
    { items := pairs.mapIdx fun (i : Nat) (p : Int × Int) =>
        readMem (if a.isFortran = false ∧ a.cContiguous = false then (sourceArray a alloc).mem else mems i) p.1 (p.2 * (sourceArray a alloc).itemsize).toNat }
  | .error e => { items := [], stop := some e }

/-- `pack_ndarray`, bloscpack/numpy_io.py:150-192, of an array that is changed meanwhile -/
def packChangingNdarray {σ : Type} (E : Env Json) (lib : NumpyLib) (a : NdArray) (alloc : Int) (mems : Nat → Int → UInt8) (sink : CompressedSink Json σ)
    (chunk_size : ChunkSizeArg := DEFAULT_CHUNK_SIZE) (blosc : BloscArgs := {}) (b : BloscpackArgs := {}) (m : MetadataArgs := {}) :
    Proc σ (BloscArgs × MetadataArgs) := do
  Proc.raiseIf (a.dtype.hasObject = true) .objectNumpyArrayRejection
  let blosc' : BloscArgs := { blosc with typesize := a.itemsize }
  let metadata ← Proc.ofExcept (ndarrayMeta lib a)
  let c ← Proc.ofExcept (calculateNchunks ((prodShape a.shape * a.itemsize : Nat) : Int) chunk_size)
  let m' ← pack E (changingNumpySource a alloc mems) sink c.1 c.2.1 c.2.2 (some metadata) blosc' b m
  Proc.pure (blosc', m')

/-- `pack_ndarray_to_bytes`, bloscpack/numpy_io.py:239-277, of an array that is changed meanwhile -/
def packChangingNdarrayToBytes (E : Env Json) (lib : NumpyLib) (a : NdArray) (alloc : Int) (mems : Nat → Int → UInt8)
    (chunk_size : ChunkSizeArg := DEFAULT_CHUNK_SIZE) (blosc : BloscArgs := {}) (b : BloscpackArgs := {}) (m : MetadataArgs := {}) : Except Err Bytes :=
  match packChangingNdarray E lib a alloc mems (compressedFPSink E) chunk_size blosc b m { fp := { data := [] } } with
  | (.ok _, s) => .ok s.fp.data
  | (.error e, _) => .error e

end Bloscpack
