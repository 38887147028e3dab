import Verif.Spec.Float
/-!
Numbers in JSON texts, section 6 of RFC 8259.
-/
namespace Bloscpack.Spec

/-- digits without superfluous zeros, section 6 -/
inductive JsonNat : List Char → Nat → Prop where
  | digit (c : Char) (d : Nat) : "0123456789".toList[d]? = some c → JsonNat [c] d
  | more (t : List Char) (v : Nat) (c : Char) (d : Nat) : JsonNat t v → v ≠ 0 → "0123456789".toList[d]? = some c → JsonNat (t ++ [c]) (10 * v + d)

/-- a number with a fraction or an exponent or both, and the float nearest to it: the number that all its digits spell, times a power of ten, from
which the digits of the fraction are taken off -/
def JsonFloat (t : List Char) (d : Double) : Prop :=
  ∃ (neg : Bool) (ip : List Char) (n : Nat) (fp : Option (List Char)) (ex : List Char) (x : Int),
    t = (if neg then ['-'] else []) ++ (ip ++ (fractionText fp ++ ex)) ∧ JsonNat ip n ∧ (∀ ds, fp = some ds → Digits ds) ∧ ExpText ex x ∧
    (fp ≠ none ∨ ex ≠ []) ∧ IsFloat neg (decimal (ip ++ fp.getD [])) (x - (fp.getD []).length) d

end Bloscpack.Spec
