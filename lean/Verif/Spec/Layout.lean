import Verif.Spec.Numpy
/-
The elements of an array in the two orders numpy knows.
-/
namespace Bloscpack.Spec

/-- all indices of an array of this shape in C order: the last index varies fastest -/
def cOrder : List Nat → List (List Nat)
  | [] => [[]]
  | n :: ns => (List.range n).flatMap (fun i => (cOrder ns).map (fun r => i :: r))

/-- all indices in Fortran order: the first index varies fastest -/
def fOrder : List Nat → List (List Nat)
  | [] => [[]]
  | n :: ns => (fOrder ns).flatMap (fun r => (List.range n).map (fun i => i :: r))

/-- the bytes of all elements, in Fortran order if numpy takes the array for a Fortran array, else in C order -/
def elements (a : NdArray) : Bytes := ((if a.isFortran then fOrder else cOrder) a.shape).flatMap a.item

end Bloscpack.Spec
