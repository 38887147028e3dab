import Verif.Model.EntryPoints
import Verif.Model.Json
import Verif.Model.Repr
/-
Model of bloscpack/numpy_io.py, and of the parts of numpy it uses: arrays in memory, contiguity flags, dtypes and their
descriptions.
-/
namespace Bloscpack

/-! ### Python literals and numpy dtypes -/

mutual
/-- `numpy.dtype`: either a type without fields, given by `dtype.str` and `dtype.itemsize`, or a record (structured) type.
Simplification: a dtype's `metadata` attribute and `alignment` are left out. -/
inductive DType where
  | scalar (str : PyStr) (size : Nat)
  | record (fields : Fields) (size : Nat)
/-- the fields of a record type: name, title, offset, shape (`[]`: not a sub-array) and type of each -/
inductive Fields where
  | nil
  | cons (name : PyStr) (title : Option PyStr) (offset : Nat) (shape : List Nat) (type : DType) (rest : Fields)
end

/-- `dtype.itemsize` -/
def DType.size : DType → Nat
  | .scalar _ n => n
  | .record _ n => n

/-- number of elements of an array of this shape -/
def prodShape : List Nat → Nat
  | [] => 1
  | n :: ns => n * prodShape ns

mutual
/-- `dtype.hasobject`: `'|O'` is the string of the object type -/
def DType.hasObject : DType → Bool
  | .scalar s _ => s == pyStr "|O"
  | .record fs _ => fs.hasObject
def Fields.hasObject : Fields → Bool
  | .nil => false
  | .cons _ _ _ _ t rest => t.hasObject || rest.hasObject
end

/-- a padding entry of a description: `('', '|V<n>')` -/
def padding (n : Nat) : PyLit :=
  .tuple [.str [], .str (pyStr "|V" ++ (Nat.toDigits 10 n).map (fun c => chr c.toNat))]

/-- name, or (title, name) -/
def fieldName (name : PyStr) : Option PyStr → PyLit
  | none => .str name
  | some t => .tuple [.str t, .str name]

/-- an entry of a description -/
def fieldEntry (name : PyStr) (title : Option PyStr) (shape : List Nat) (descr : PyLit) : PyLit :=
  if shape = [] then .tuple [fieldName name title, descr]
  else .tuple [fieldName name title, descr, .tuple (shape.map (fun n : Nat => .int n))]

/-- the bytes a field takes -/
def fieldSize (shape : List Nat) (t : DType) : Nat := prodShape shape * t.size

mutual
/-- what `_ndarray_meta` takes the `repr` of, bloscpack/numpy_io.py:53-55: `dtype.descr` of a record type, else `dtype.str`.
numpy's `descr` (`_array_descr` in numpy/core/_internal.py) fills gaps with nameless void fields and raises `ValueError` for
overlapping or out-of-order fields. -/
def DType.descr : DType → Except Err PyLit
  | .scalar s _ => .ok (.str s)
  | .record fs size => do
    let r ← fs.descr 0
    return .list (r.1 ++ (if size > r.2 then [padding (size - r.2)] else []))
/-- the entries for fields from position `pos` on, and the position behind them -/
def Fields.descr : Fields → Nat → Except Err (List PyLit × Nat)
  | .nil, pos => .ok ([], pos)
  | .cons name title offset shape t rest, pos => do
    if offset < pos then throw .valueError
    let d ← t.descr
    let r ← rest.descr (offset + fieldSize shape t)
    return ((if offset > pos then [padding (offset - pos)] else []) ++ fieldEntry name title shape d :: r.1, r.2)
end

/-- What is used of Python and numpy besides: `str.isprintable` of single characters, and `numpy.dtype(str)` as the canonical
string and the item size. -/
structure NumpyLib where
  printable : CodePoint → Bool
  scalar : PyStr → Option (PyStr × Nat)

/-- `repr` of a description -/
def NumpyLib.repr (lib : NumpyLib) (x : PyLit) : PyStr := reprLit lib.printable x

/-- the shape entry of a field: an int or a tuple of ints -/
def shapeOf : PyLit → Except Err (List Nat)
  | .int n => if 0 ≤ n then .ok [n.toNat] else .error .valueError
  | .tuple l => l.mapM (fun x => match x with | .int n => if 0 ≤ n then .ok n.toNat else .error .valueError | _ => .error .typeError)
  | _ => .error .typeError

/-- the name entry of the `i`-th field: a string or a (title, name) pair; an empty name becomes `f<i>` (with a title: not
modelled, rejected) -/
def nameOf (i : Nat) : PyLit → Except Err (PyStr × Option PyStr)
  | .str [] => .ok (pyStr "f" ++ (Nat.toDigits 10 i).map (fun c => chr c.toNat), none)
  | .str s => .ok (s, none)
  | .tuple [.str t, .str s] => if s = [] then .error .typeError else .ok (s, some t)
  | _ => .error .typeError

/-- all names and titles of a record's own fields -/
def Fields.labels : Fields → List PyStr
  | .nil => []
  | .cons name title _ _ _ rest => name :: (title.toList ++ rest.labels)

mutual
/-- `numpy.dtype(x)` for a string or a list of fields; records are packed, i.e. without gaps. -/
def dtypeOf (lib : NumpyLib) : PyLit → Except Err DType
  | .str s =>
    match lib.scalar s with
    | some (s', n) => .ok (.scalar s' n)
    | none => .error .typeError
  | .list l => do
    let r ← fieldsOf lib l 0 0
    if r.1.labels.Nodup then return .record r.1 r.2 else throw .valueError
  | .int _ => .error .typeError
  | .tuple _ => .error .typeError
/-- the fields made from a list of entries, the first being number `i` and at position `pos`; and the position behind -/
def fieldsOf (lib : NumpyLib) : List PyLit → Nat → Nat → Except Err (Fields × Nat)
  | [], _, pos => .ok (.nil, pos)
  | .tuple [n, d] :: rest, i, pos => do
    let nm ← nameOf i n
    let t ← dtypeOf lib d
    let r ← fieldsOf lib rest (i + 1) (pos + fieldSize [] t)
    return (.cons nm.1 nm.2 pos [] t r.1, r.2)
  | .tuple [n, d, sh] :: rest, i, pos => do
    let nm ← nameOf i n
    let t ← dtypeOf lib d
    let shape ← shapeOf sh
    let r ← fieldsOf lib rest (i + 1) (pos + fieldSize shape t)
    return (.cons nm.1 nm.2 pos shape t r.1, r.2)
  | _ :: _, _, _ => .error .typeError
end

/-! ### arrays in memory -/

/-- `n` bytes of memory from address `p` on -/
def readMem (mem : Int → UInt8) (p : Int) (n : Nat) : Bytes := (List.range n).map (fun k : Nat => mem (p + k))

/-- memory after storing bytes from address `p` on -/
def writeMem (mem : Int → UInt8) (p : Int) (bs : Bytes) : Int → UInt8 := fun x =>
  if p ≤ x ∧ x < p + bs.length then bs.getD (x - p).toNat 0 else mem x

/-- `numpy.ndarray`: element `(i, j, …)` is the `itemsize` bytes at address `ptr + i * strides[0] + j * strides[1] + …`;
`mem` is the memory of the process. -/
structure NdArray where
  dtype : DType
  shape : List Nat
  strides : List Int
  ptr : Int
  mem : Int → UInt8

/-- `ndarray.itemsize` -/
def NdArray.itemsize (a : NdArray) : Nat := a.dtype.size

/-- distance in bytes of the element with the given index from the first one -/
def strideOffset : List Int → List Nat → Int
  | s :: ss, i :: is => s * i + strideOffset ss is
  | _, _ => 0

/-- the bytes of an element -/
def NdArray.item (a : NdArray) (idx : List Nat) : Bytes := readMem a.mem (a.ptr + strideOffset a.strides idx) a.itemsize

/-- all indices in C order: the last one varies fastest -/
def indices : List Nat → List (List Nat)
  | [] => [[]]
  | n :: ns => (List.range n).flatMap (fun i => (indices ns).map (fun r => i :: r))

/-- strides of a C contiguous array -/
def cStrides (itemsize : Nat) : List Nat → List Int
  | [] => []
  | _ :: ns => ((itemsize * prodShape ns : Nat) : Int) :: cStrides itemsize ns

/-- strides of a Fortran contiguous array; `itemsize` is the distance of consecutive elements -/
def fStrides (itemsize : Nat) : List Nat → List Int
  | [] => []
  | n :: ns => (itemsize : Int) :: fStrides (itemsize * n) ns

/-- dimensions of size 1 are ignored, the others have the strides of a C contiguous array -/
def cStridesOk (itemsize : Nat) : List Nat → List Int → Bool
  | n :: ns, s :: ss => (n == 1 || s == ((itemsize * prodShape ns : Nat) : Int)) && cStridesOk itemsize ns ss
  | _, _ => true

/-- dimensions of size 1 are ignored, the others have the strides of a Fortran contiguous array -/
def fStridesOk (itemsize : Nat) : List Nat → List Int → Bool
  | n :: ns, s :: ss => (n == 1 || s == (itemsize : Int)) && fStridesOk (itemsize * n) ns ss
  | _, _ => true

/-- `ndarray.flags['C_CONTIGUOUS']` (numpy: `_UpdateContiguousFlags`; an array without elements is contiguous both ways) -/
def NdArray.cContiguous (a : NdArray) : Bool := a.shape.contains 0 || cStridesOk a.itemsize a.shape a.strides

/-- `ndarray.flags['F_CONTIGUOUS']` -/
def NdArray.fContiguous (a : NdArray) : Bool := a.shape.contains 0 || fStridesOk a.itemsize a.shape a.strides

/-- `numpy.isfortran` -/
def NdArray.isFortran (a : NdArray) : Bool := a.fContiguous && !a.cContiguous

/-- `numpy.ascontiguousarray(a)` of an array that is not C contiguous: a copy in C order at the newly allocated address
`alloc` (a 0-dimensional array, which would become 1-dimensional, is always contiguous) -/
def NdArray.toContiguous (a : NdArray) (alloc : Int) : NdArray :=
  { a with strides := cStrides a.itemsize a.shape, ptr := alloc,
           mem := writeMem a.mem alloc ((indices a.shape).flatMap a.item) }

/-! ### bloscpack/numpy_io.py -/

/-- `_ndarray_meta`, bloscpack/numpy_io.py:44-59 (the tuple `shape` is the list it becomes in JSON) -/
def ndarrayMeta (lib : NumpyLib) (a : NdArray) : Except Err Json := do
  let d ← a.dtype.descr
  return .obj [(pyStr "dtype", .str (lib.repr d)), (pyStr "shape", .arr (a.shape.map (fun n : Nat => .int n))),
    (pyStr "order", .str (pyStr (if a.isFortran then "F" else "C"))), (pyStr "container", .str (pyStr "numpy"))]

/-- the array `PlainNumpySource` keeps, bloscpack/numpy_io.py:64-78. The first branch of the code is dead:
`numpy.isfortran` implies `F_CONTIGUOUS`. -/
def sourceArray (a : NdArray) (alloc : Int) : NdArray :=
  if a.isFortran = false ∧ a.cContiguous = false then a.toContiguous alloc else a

/-- `PlainNumpySource.__iter__`, bloscpack/numpy_io.py:84-95: the (address, number of items) pairs. `int(x / itemsize)` is
a float division, exact for these sizes below 2^31. -/
def numpyPairs (ptr : Int) (itemsize : Nat) (chunk_size last_chunk nchunks : Int) : Except Err (List (Int × Int)) :=
  if itemsize = 0 then .error .zeroDivisionError
  else if chunk_size % itemsize ≠ 0 then .error .chunkSizeTypeSizeMismatch
  else .ok ((List.range (nchunks - 1).toNat).map (fun i : Nat => (ptr + i * chunk_size, chunk_size / itemsize)) ++
    [(ptr + (nchunks - 1).toNat * chunk_size, last_chunk / itemsize)])

/-- `PlainNumpySource` as a source of chunks: `blosc.compress_ptr(ptr, items, typesize=itemsize, …)`, bloscpack/numpy_io.py:39-41,
compresses the `items * itemsize` bytes at `ptr` -/
def plainNumpySource (s : NdArray) : PlainSource := fun chunk_size last_chunk nchunks =>
  match numpyPairs s.ptr s.itemsize chunk_size last_chunk nchunks with
  | .ok pairs => { items := pairs.map (fun p : Int × Int => readMem s.mem p.1 (p.2 * s.itemsize).toNat) }
  | .error e => { items := [], stop := some e }

/-- `pack_ndarray`, bloscpack/numpy_io.py:150-192. `alloc` is the address of a copy, if one is made. Result: the blosc and
metadata args as left behind (`blosc_args.typesize` is assigned). -/
def packNdarray {σ : Type} (E : Env Json) (lib : NumpyLib) (a : NdArray) (alloc : Int) (sink : CompressedSink Json σ)
    (chunk_size : ChunkSizeArg := DEFAULT_CHUNK_SIZE) (blosc : BloscArgs := {}) (b : BloscpackArgs := {}) (m : MetadataArgs := {}) :
    Proc σ (BloscArgs × MetadataArgs) := do
  Proc.raiseIf (a.dtype.hasObject = true) .objectNumpyArrayRejection
  let blosc' : BloscArgs := { blosc with typesize := a.itemsize }
  let metadata ← Proc.ofExcept (ndarrayMeta lib a)
  let c ← Proc.ofExcept (calculateNchunks ((prodShape a.shape * a.itemsize : Nat) : Int) chunk_size)
  let m' ← pack E (plainNumpySource (sourceArray a alloc)) sink c.1 c.2.1 c.2.2 (some metadata) blosc' b m
  Proc.pure (blosc', m')

/-- `pack_ndarray_to_bytes`, bloscpack/numpy_io.py:239-277 -/
def packNdarrayToBytes (E : Env Json) (lib : NumpyLib) (a : NdArray) (alloc : Int) (chunk_size : ChunkSizeArg := DEFAULT_CHUNK_SIZE)
    (blosc : BloscArgs := {}) (b : BloscpackArgs := {}) (m : MetadataArgs := {}) : Except Err Bytes :=
  match packNdarray E lib a alloc (compressedFPSink E) chunk_size blosc b m { fp := { data := [] } } with
  | (.ok _, s) => .ok s.fp.data
  | (.error e, _) => .error e

/-! ### unpacking -/

/-- `d[key]` -/
def lookupKey (key : PyStr) : List (PyStr × Json) → Except Err Json
  | [] => .error .keyError
  | (k, v) :: rest => if k = key then .ok v else lookupKey key rest

/-- `metadata[key]`: other objects than dicts raise `TypeError` -/
def Json.item (key : String) : Json → Except Err Json
  | .obj l => lookupKey (pyStr key) l
  | _ => .error .typeError

mutual
/-- `_conv`, bloscpack/numpy_io.py:98-117, on the values JSON gives for old descriptions; other values than strings, integers
and lists are not modelled (`TypeError`) -/
def conv : Json → Except Err PyLit
  | .str s => .ok (.str s)
  | .int i => .ok (.int i)
  | .arr [] => .error .indexError
  | .arr (.arr x :: l) => do
    let v ← conv (.arr x)
    let vs ← convList l
    return .list (v :: vs)
  | .arr (x :: l) => do
    let v ← conv x
    let vs ← convList l
    return .tuple (v :: vs)
  | _ => .error .typeError
def convList : List Json → Except Err (List PyLit)
  | [] => .ok []
  | x :: l => do
    let v ← conv x
    let vs ← convList l
    return v :: vs
end

/-- the description in the metadata, bloscpack/numpy_io.py:135-138: `literal_eval` fails on anything but the text of a
literal, then `_conv` is used -/
def metaDescr (lib : NumpyLib) (x : Json) : Except Err PyLit :=
  match x with
  | .str s =>
    match literalEval s with
    | some l => .ok l
    | none => conv x
  | _ => conv x

/-- a list of dimensions -/
def dimsOf : List Json → Except Err (List Nat)
  | [] => .ok []
  | .int n :: l => do
    let ns ← dimsOf l
    if 0 ≤ n then return n.toNat :: ns else throw .valueError
  | _ :: _ => .error .typeError

/-- the shape argument of `numpy.empty` -/
def shapeArg : Json → Except Err (List Nat)
  | .int n => if 0 ≤ n then .ok [n.toNat] else .error .valueError
  | .arr l => dimsOf l
  | _ => .error .typeError

/-- the order argument of `numpy.empty`: is it Fortran order? (lower case and `'A'`, `'K'` are not modelled) -/
def orderArg : Json → Except Err Bool
  | .str s => if s = pyStr "F" then .ok true else if s = pyStr "C" then .ok false else .error .valueError
  | _ => .error .typeError

/-- `container == 'numpy'` -/
def isNumpy : Json → Bool
  | .str s => s == pyStr "numpy"
  | _ => false

/-- `PlainNumpySink.__init__`, bloscpack/numpy_io.py:122-142 (arguments are evaluated from left to right, then `numpy.empty` looks at the
shape and the order): the new array at the address `alloc` numpy allocates, with whatever
`mem` holds there -/
def plainNumpySink (lib : NumpyLib) (metadata : Option Json) (alloc : Int) (mem : Int → UInt8) : Except Err NdArray :=
  match metadata with
  | none => .error .notANumpyArray
  | some md => do
    let container ← md.item "container"
    if isNumpy container = false then throw .notANumpyArray
    let d ← metaDescr lib (← md.item "dtype")
    let shape ← md.item "shape"
    let dtype ← dtypeOf lib d
    let order ← md.item "order"
    let shape ← shapeArg shape
    let fortran ← orderArg order
    return { dtype, shape, strides := if fortran then fStrides dtype.size shape else cStrides dtype.size shape, ptr := alloc, mem }

/-- `PlainNumpySink.put`, bloscpack/numpy_io.py:144-147, on the memory and the pointer: `blosc.decompress_ptr` writes as many
bytes as there are, wherever the pointer points. Simplification: a decompression that fails writes nothing. -/
def numpySinkPut (E : Env Json) (compressed : Bytes) : Proc ((Int → UInt8) × Int) Unit := do
  let d ← Proc.ofExcept (E.decompress compressed)
  Proc.modify (fun s => (writeMem s.1 s.2 d, s.2 + d.length))

/-- `unpack_ndarray`, bloscpack/numpy_io.py:286-307 with a `CompressedFPSource`. The result is the outcome and the memory afterwards. -/
def unpackNdarray (E : Env Json) (lib : NumpyLib) (input : FP) (alloc : Int) (mem : Int → UInt8) :
    Except Err NdArray × (Int → UInt8) :=
  match readBeginning E input with
  | (.error e, _) => (.error e, mem)
  | (.ok (h, metadata, _, _), fp) =>
    match h.checksumImpl E with
    | .error e => (.error e, mem)
    | .ok impl =>
      match plainNumpySink lib metadata alloc mem with
      | .error e => (.error e, mem)
      | .ok a =>
        let r := unpack (compressedFPSource h impl) (numpySinkPut E) (fp, (mem, alloc))
        (r.1.map (fun _ => { a with mem := r.2.2.1 }), r.2.2.1)

/-- `unpack_ndarray_from_bytes`, bloscpack/numpy_io.py:338-358 -/
def unpackNdarrayFromBytes (E : Env Json) (lib : NumpyLib) (bytes : Bytes) (alloc : Int) (mem : Int → UInt8) :
    Except Err NdArray × (Int → UInt8) :=
  unpackNdarray E lib { data := bytes, inMemory := true } alloc mem

/-! ### entry points with file names -/

/-- `pack_ndarray_to_file`, bloscpack/numpy_io.py:198-231: the output is opened before the array is looked at -/
def packNdarrayToFile (E : Env Json) (lib : NumpyLib) (fs : FS) (a : NdArray) (alloc : Int) (filename : String)
    (chunk_size : ChunkSizeArg := DEFAULT_CHUNK_SIZE) (blosc : BloscArgs := {}) (b : BloscpackArgs := {}) (m : MetadataArgs := {}) :
    Except Err (BloscArgs × MetadataArgs) × FS :=
  match fs.openWrite filename with
  | .error e => (.error e, fs)
  | .ok fs1 =>
    let r := packNdarray E lib a alloc (compressedFPSink E) chunk_size blosc b m { fp := { data := [] } }
    (r.1, fs1.put filename r.2.fp.data)

/-- `unpack_ndarray_from_file`, bloscpack/numpy_io.py:310-329 -/
def unpackNdarrayFromFile (E : Env Json) (lib : NumpyLib) (fs : FS) (filename : String) (alloc : Int) (mem : Int → UInt8) :
    Except Err NdArray × (Int → UInt8) :=
  match fs.openRead filename with
  | .error e => (.error e, mem)
  | .ok bytes => unpackNdarray E lib { data := bytes } alloc mem

end Bloscpack
