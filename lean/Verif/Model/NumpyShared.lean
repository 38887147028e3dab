import Verif.Model.NumpyDisk
import Verif.Model.Shared
/-
Arrays in files that another process writes to.
-/
namespace Bloscpack

/-- `unpack_ndarray_from_file`, bloscpack/numpy_io.py:310-329, of a file that another process writes to: the outcome and the memory afterwards -/
def unpackNdarrayShared (E : Env Json) (lib : NumpyLib) (s : Shared) (alloc : Int) (mem : Int → UInt8) : Except Err NdArray × (Int → UInt8) :=
  let r := unpackNdarrayWith E lib alloc mem (s, (mem, alloc))
  (r.1, r.2.2.1)

end Bloscpack
