import Verif.Props.NumpyExact

/-! C96: the dtype in the metadata of an array is the text of a Python literal, however it is spelled. -/
namespace Bloscpack

/-- C96, reading: let the metadata of an archive describe an array, with a text under `dtype` that spells the description of a dtype by the
rules of the Python language. Then the array of that dtype is unpacked, whichever quotes, escapes, blanks, brackets and commas the text
contains. -/
theorem C96_read (E : Env Json) (lib : NumpyLib) (x data : Bytes) (l : List (PyStr × Json)) (s : PyStr) (d : PyLit) (dtype : DType)
    (shape : List Nat) (sh : Json) (fortran : Bool) (alloc : Int) (mem : Int → UInt8)
    (hx : unpackBytesFromBytes E x = .ok (data, some (.obj l)))
    (h1 : Spec.Entry l "container" (.str (pyStr "numpy"))) (h2 : Spec.Entry l "dtype" (.str s)) (h3 : Spec.Spells s d)
    (h4 : dtypeOf lib d = .ok dtype) (h5 : Spec.Entry l "shape" sh) (h6 : Spec.ShapeEntry shape sh)
    (h7 : Spec.Entry l "order" (.str (pyStr (if fortran then "F" else "C")))) :
    ∃ mem', unpackNdarrayFromBytes E lib x alloc mem = (.ok (Spec.arrayAt dtype shape fortran alloc mem'), mem') ∧
      Spec.Holds mem mem' alloc data :=
  ⟨writeMem mem alloc data, (C93_memory E lib x alloc mem _ _).2 ⟨data, _, dtype, shape, fortran, hx,
    ⟨l, .str s, d, sh, rfl, h1, h2, .text s d h3, h4, h5, h6, h7⟩, writeMem_holds _ _ _, rfl⟩, writeMem_holds _ _ _⟩

/-- C96: a text has one meaning at most. -/
theorem C96_one_meaning (s : PyStr) (d d' : PyLit) (h : Spec.Spells s d) (h' : Spec.Spells s d') : d = d' := by
  rw [← literalEval_iff] at h h'
  rw [h] at h'
  exact Option.some.inj h'

/-- C96, writing: what packing an array stores under `dtype` is a text that spells numpy's description of the dtype by the rules of the Python
language, whichever characters Python finds printable. For dtypes without gaps that numpy knows, the description leads back to the dtype. -/
theorem C96_stored (E : Env Json) (L : E.Laws) (lib : NumpyLib) (a : NdArray) (alloc : Int) (cs : ChunkSizeArg) (blosc : BloscArgs)
    (b : BloscpackArgs) (m : MetadataArgs) (out : Bytes) (h : packNdarrayToBytes E lib a alloc cs blosc b m = .ok out) :
    ∃ data l s d, unpackBytesFromBytes E out = .ok (data, some (.obj l)) ∧ Spec.Entry l "dtype" (.str s) ∧ a.dtype.descr = .ok d ∧
      Spec.Spells s d ∧ (Spec.GapFree a.dtype → Spec.Known lib a.dtype → dtypeOf lib d = .ok a.dtype) := by
  obtain ⟨md, hmd, hu⟩ := packNdarray_ok L h
  unfold ndarrayMeta at hmd
  obtain ⟨d, hd, hmd⟩ := Except.bind_ok_iff.1 hmd
  cases hmd
  have hb : ∀ j, unpackFrom E out = (.ok (some j), sourceBuffer a alloc) → unpackBytesFromBytes E out = .ok (sourceBuffer a alloc, some j) := by
    intro j hj
    rcases unpackFP_toMemory E out with h1 | ⟨h1, -⟩
    · unfold unpackBytesFromBytes
      rw [h1, hj]
    · rw [hj] at h1; cases h1
  refine ⟨sourceBuffer a alloc, _, lib.repr d, d, hb _ hu, ⟨[], _, rfl, by simp⟩, hd, (literalEval_iff _ _).1 (literalEval_repr lib.printable d), ?_⟩
  intro hg hk
  obtain ⟨d', h1, h2⟩ := dtypeOf_descr lib a.dtype hg hk
  rw [hd] at h1
  cases h1
  exact h2

/-- spellings of a record: by other quotes, with escapes, blanks, line ends, brackets and commas -/
def Toy.spellings : List PyStr :=
  [pyStr "[('a', '<i4'), ('b', '|u1', (2,))]", pyStr " [ (\"a\" ,'\\x3ci\\u0034'),\n(('b'), '|u1', (2 , ), ), ]\n", pyStr "[('\\\na', '<i4'), ('b', ('\\U0000007Cu1'), (2,))]"]

-- they spell the same record
example : ∀ s ∈ Toy.spellings, Spec.Spells s (.list [.tuple [.str (pyStr "a"), .str (pyStr "<i4")],
    .tuple [.str (pyStr "b"), .str (pyStr "|u1"), .tuple [.int 2]]]) := by
  intro s hs
  rw [← literalEval_iff]
  simp only [Toy.spellings, List.mem_cons, List.not_mem_nil, or_false] at hs
  rcases hs with rfl | rfl | rfl <;> rfl

-- and the same array is unpacked
example : (Toy.spellings.take 2).map (fun s =>
      match packBytesToBytes Toy.jsonEnv [1, 2, 3, 4, 5, 6, 7, 8, 9, 10, 11, 12] (.int 5) (some (.obj [(pyStr "container", .str (pyStr "numpy")),
        (pyStr "dtype", .str s), (pyStr "shape", .arr [.int 2]), (pyStr "order", .str (pyStr "C"))])) {} { max_app_chunks := .int 0 }
        { max_meta_size := .int 250 } with
      | .error e => .error e
      | .ok out => (unpackNdarrayFromBytes Toy.jsonEnv Toy.numpy out 1000 (fun _ => 0)).1.map (fun a => [a.item [0], a.item [1]])) =
    List.replicate 2 (.ok [[1, 2, 3, 4, 5, 6], [7, 8, 9, 10, 11, 12]] : Except Err (List Bytes)) := by
  decide +kernel

end Bloscpack
