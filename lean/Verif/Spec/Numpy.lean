import Verif.Model.Numpy
/-
Specification of the numpy properties.
-/
namespace Bloscpack.Spec

/-- `idx` is an index of an array of the given shape -/
def InShape : List Nat → List Nat → Prop
  | [], [] => True
  | n :: ns, i :: is => i < n ∧ InShape ns is
  | _, _ => False

/-- the same dtype, shape and elements; memory layout does not matter -/
structure SameArray (a b : NdArray) : Prop where
  dtype : b.dtype = a.dtype
  shape : b.shape = a.shape
  items : ∀ idx, InShape a.shape idx → b.item idx = a.item idx

/-- the (address, number of items) pairs are consecutive, from `s` to exactly `e` -/
def Tiles (itemsize : Nat) : Int → Int → List (Int × Int) → Prop
  | s, e, [] => s = e
  | s, e, (p, n) :: r => p = s ∧ 0 ≤ n ∧ Tiles itemsize (s + n * itemsize) e r

mutual
/-- A dtype numpy makes from a list of fields: without gaps between or behind the fields, all the way down. -/
def GapFree : DType → Prop
  | .scalar _ _ => True
  | .record fs size => GapFreeFrom fs 0 size
/-- the fields are side by side from position `pos` to `size` -/
def GapFreeFrom : Fields → Nat → Nat → Prop
  | .nil, pos, size => pos = size
  | .cons _ _ offset shape t rest, pos, size => offset = pos ∧ GapFree t ∧ GapFreeFrom rest (offset + prodShape shape * t.size) size
end

mutual
/-- numpy knows the scalar types by these strings; the names of fields are not empty, names and titles are distinct -/
def Known (lib : NumpyLib) : DType → Prop
  | .scalar s n => lib.scalar s = some (s, n)
  | .record fs _ => fs.labels.Nodup ∧ KnownFields lib fs
def KnownFields (lib : NumpyLib) : Fields → Prop
  | .nil => True
  | .cons name _ _ _ t rest => name ≠ [] ∧ Known lib t ∧ KnownFields lib rest
end

/-- the types of a record's fields -/
def fieldTypes : Fields → List DType
  | .nil => []
  | .cons _ _ _ _ t rest => t :: fieldTypes rest

/-- the type, or a field of it at some depth, has this type string -/
inductive Mentions (s : PyStr) : DType → Prop where
  | here (size : Nat) : Mentions s (.scalar s size)
  | field (t : DType) (fs : Fields) (size : Nat) : t ∈ fieldTypes fs → Mentions s t → Mentions s (.record fs size)

end Bloscpack.Spec

namespace Bloscpack.Spec

mutual
/-- what JSON makes of a Python literal: tuples become lists -/
def jsonOf : PyLit → Json
  | .str s => .str s
  | .int i => .int i
  | .tuple l => .arr (jsonOfs l)
  | .list l => .arr (jsonOfs l)
def jsonOfs : List PyLit → List Json
  | [] => []
  | x :: l => jsonOf x :: jsonOfs l
end

mutual
/-- a numpy dtype description without field titles: a type string, or a list of fields -/
inductive IsDescr : PyLit → Prop where
  | basic (s : PyStr) : IsDescr (.str s)
  | record (f : PyLit) (fs : List PyLit) : (∀ x ∈ f :: fs, IsField x) → IsDescr (.list (f :: fs))
/-- a field: (name, description), (name, description, length) or (name, description, shape) -/
inductive IsField : PyLit → Prop where
  | plain (name : PyStr) (d : PyLit) : IsDescr d → IsField (.tuple [.str name, d])
  | vector (name : PyStr) (d : PyLit) (n : Int) : IsDescr d → IsField (.tuple [.str name, d, .int n])
  | sub (name : PyStr) (d : PyLit) (n : Int) (ns : List Int) : IsDescr d → IsField (.tuple [.str name, d, .tuple (.int n :: ns.map .int)])
end

mutual
/-- no field, at any depth, has a title, and no record is without fields -/
def Untitled : DType → Prop
  | .scalar _ _ => True
  | .record fs _ => fs ≠ .nil ∧ UntitledFields fs
def UntitledFields : Fields → Prop
  | .nil => True
  | .cons _ title _ _ t rest => title = none ∧ Untitled t ∧ UntitledFields rest
end

end Bloscpack.Spec
