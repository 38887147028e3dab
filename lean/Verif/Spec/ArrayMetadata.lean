import Verif.Model.Numpy
import Verif.Spec.Literal
/-!
Metadata that describes an array.
-/
namespace Bloscpack.Spec

/-- what is found under a key: the first entry of that name -/
def Entry (l : List (PyStr × Json)) (key : String) (v : Json) : Prop :=
  ∃ pre post, l = pre ++ (pyStr key, v) :: post ∧ ∀ e ∈ pre, e.1 ≠ pyStr key

/-- what is written for a shape: a list of numbers, or one number for one dimension -/
inductive ShapeEntry : List Nat → Json → Prop where
  | list (shape : List Nat) : ShapeEntry shape (.arr (shape.map (fun n : Nat => .int n)))
  | number (n : Nat) : ShapeEntry [n] (.int n)

mutual
/-- how the files of old versions hold a description: strings and numbers as they are, tuples and lists both as lists. A list that begins with
a list is a list, any other one is a tuple. -/
inductive OldEntry : Json → PyLit → Prop where
  | str (s : PyStr) : OldEntry (.str s) (.str s)
  | int (i : Int) : OldEntry (.int i) (.int i)
  | list (x l : List Json) (v : PyLit) (vs : List PyLit) : OldEntry (.arr x) v → OldEntries l vs → OldEntry (.arr (.arr x :: l)) (.list (v :: vs))
  | tuple (x : Json) (l : List Json) (v : PyLit) (vs : List PyLit) : (∀ y, x ≠ .arr y) → OldEntry x v → OldEntries l vs →
      OldEntry (.arr (x :: l)) (.tuple (v :: vs))
/-- the same for each of many -/
inductive OldEntries : List Json → List PyLit → Prop where
  | none : OldEntries [] []
  | more (x : Json) (l : List Json) (v : PyLit) (vs : List PyLit) : OldEntry x v → OldEntries l vs → OldEntries (x :: l) (v :: vs)
end

/-- the descriptions of a dtype: the text of a Python literal, or what old versions wrote -/
inductive DtypeEntry : Json → PyLit → Prop where
  | text (s : PyStr) (d : PyLit) : Spells s d → DtypeEntry (.str s) d
  | old (x : Json) (d : PyLit) : (∀ s d', x = .str s → ¬ Spells s d') → OldEntry x d → DtypeEntry x d

/-- `md` is a dict with an entry that says that it is about an array, the description of a dtype that numpy knows, a shape and an order -/
def DescribesArray (lib : NumpyLib) (md : Option Json) (dtype : DType) (shape : List Nat) (fortran : Bool) : Prop :=
  ∃ l descr d sh, md = some (.obj l) ∧ Entry l "container" (.str (pyStr "numpy")) ∧
    Entry l "dtype" descr ∧ DtypeEntry descr d ∧ dtypeOf lib d = .ok dtype ∧
    Entry l "shape" sh ∧ ShapeEntry shape sh ∧
    Entry l "order" (.str (pyStr (if fortran then "F" else "C")))

/-- the array of that description at the address `p` of the memory `mem`, in one piece -/
def arrayAt (dtype : DType) (shape : List Nat) (fortran : Bool) (p : Int) (mem : Int → UInt8) : NdArray :=
  { dtype, shape, strides := if fortran then fStrides dtype.size shape else cStrides dtype.size shape, ptr := p, mem }

/-- memory with `data` at the address `p` -/
def Holds (mem mem' : Int → UInt8) (p : Int) (data : Bytes) : Prop :=
  (∀ k : Nat, k < data.length → some (mem' (p + k)) = data[k]?) ∧ ∀ x : Int, ¬ (p ≤ x ∧ x < p + data.length) → mem' x = mem x

end Bloscpack.Spec
