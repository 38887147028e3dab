import Verif.Model.Prim
/-
Independent specification of the number formats: what the README calls little-endian, signed and unsigned.
-/
namespace Bloscpack.Spec

/-- The `w` little-endian bytes of the integer `v`: byte `i` is digit `i` of `v` in base 256. With floor division
this is two's complement for negative `v`. -/
def leBytes (w : Nat) (v : Int) : List UInt8 :=
  (List.range w).map (fun i => UInt8.ofNat (v / 256 ^ i % 256).toNat)

end Bloscpack.Spec
