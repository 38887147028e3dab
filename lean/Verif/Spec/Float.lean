import Verif.Spec.Text
import Verif.Model.Float
/-!
Which float a decimal number is read as: IEEE 754, independent of the way it is found.
-/
namespace Bloscpack.Spec

/-- `v` is, in units of 2^-1074, the number that the lower 63 bits of a binary64 number stand for: with exponent bits `e` and fraction bits `f`, it is
`f` units if `e = 0`, else `1.f * 2 ^ (e - 1023)` (IEEE 754, section 3.4). Infinity counts as if the exponents went on, as it does for
rounding (section 4.3.1). -/
def Binary64 (b v : Nat) : Prop :=
  ∃ e f, f < 2 ^ 52 ∧ b = e * 2 ^ 52 + f ∧ (e = 0 ∧ v = f ∨ 1 ≤ e ∧ v = (2 ^ 52 + f) * 2 ^ (e - 1))

/-- `b` are the bits of the number nearest to `num / den`: every other number is further away, or as far away, but then the bits are
even. -/
def Nearest (num den b : Nat) : Prop :=
  b ≤ 2047 * 2 ^ 52 ∧ ∃ v, Binary64 b v ∧ ∀ b' v', b' ≤ 2047 * 2 ^ 52 → b' ≠ b → Binary64 b' v' →
    ((num * 2 ^ 1074 : Nat) - (v * den : Nat) : Int).natAbs < ((num * 2 ^ 1074 : Nat) - (v' * den : Nat) : Int).natAbs ∨
    ((num * 2 ^ 1074 : Nat) - (v * den : Nat) : Int).natAbs = ((num * 2 ^ 1074 : Nat) - (v' * den : Nat) : Int).natAbs ∧ b % 2 = 0

/-- the float nearest to `± m * 10 ^ x` -/
def IsFloat (neg : Bool) (m : Nat) (x : Int) (d : Double) : Prop :=
  ∃ b : Magnitude, d = .num neg b ∧ Nearest (m * 10 ^ x.toNat) (10 ^ (-x).toNat) b.val

end Bloscpack.Spec
