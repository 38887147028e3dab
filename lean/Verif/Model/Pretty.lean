import Verif.Model.Prim
/-
Model of bloscpack/pretty.py: human readable sizes.
-/
namespace Bloscpack

/-- `SUFFIXES`, bloscpack/constants.py:31-36 -/
def suffixValue : Char → Option Nat
  | 'B' => some (2 ^ 0)
  | 'K' => some (2 ^ 10)
  | 'M' => some (2 ^ 20)
  | 'G' => some (2 ^ 30)
  | 'T' => some (2 ^ 40)
  | _ => none

/-- A finite binary floating point number `± mant * 2 ^ exp`. -/
structure Flt where
  neg : Bool
  mant : Nat
  exp : Int
  deriving DecidableEq, Repr

/-- `num / den * 2 ^ (-e)` rounded to the nearest integer, ties to even -/
def roundScaled (num den : Nat) (e : Int) : Nat :=
  let n := num * 2 ^ (-e).toNat
  let d := den * 2 ^ e.toNat
  let q := n / d
  let r := n % d
  if 2 * r < d then q else if 2 * r > d then q + 1 else if q % 2 = 0 then q else q + 1

/-- Round the non-negative rational `num / den` to the nearest IEEE binary64 number (53 bit significand, ties to
even). Simplification: the exponent is unbounded. Overflow is treated at `PyFloat.truncMul`; the rounding of subnormal numbers makes
no difference because `int` of them is zero. -/
def roundFlt (num den : Nat) : Nat × Int :=
  if num = 0 then (0, 0) else
  let e0 : Int := (num.log2 : Int) - den.log2 - 53
  -- `num/den * 2^-e0` lies in (2^52, 2^54)
  let e := if num * 2 ^ (-e0).toNat < 2 ^ 53 * (den * 2 ^ e0.toNat) then e0 else e0 + 1
  (roundScaled num den e, e)

/-- leading decimal digits of a string: their value, how many there are, and the rest -/
def takeDigits : List Char → Nat → Nat → Nat × Nat × List Char
  | [], v, k => (v, k, [])
  | c :: cs, v, k => if c.isDigit then takeDigits cs (10 * v + (c.toNat - 48)) (k + 1) else (v, k, c :: cs)

/-- optional sign: is it a minus, and what follows -/
def takeSign : List Char → Bool × List Char
  | '-' :: r => (true, r)
  | '+' :: r => (false, r)
  | r => (false, r)

/-- optional point and fraction digits after an integer part of value `ip`: the value of all digits, the number of
fraction digits, and what follows -/
def takeFraction (ip : Nat) : List Char → Nat × Nat × List Char
  | '.' :: r => takeDigits r ip 0
  | r => (ip, 0, r)

/-- exponent part of a float literal: nothing, or `e`, optional sign, digits -/
def parseExp : List Char → Option Int
  | [] => some 0
  | c :: cs =>
    if c = 'e' ∨ c = 'E' then
      let sgn := takeSign cs
      let (v, k, rest) := takeDigits sgn.2 0 0
      if k = 0 ∨ rest ≠ [] then none else some (if sgn.1 then -(v : Int) else v)
    else none

/-- the decimal numbers `float` reads: optional sign, digits with an optional point, optional exponent (`none` = ValueError) -/
def parseFloat (s : List Char) : Option Flt :=
  let sgn := takeSign s
  let i := takeDigits sgn.2 0 0
  let f := takeFraction i.1 i.2.2
  if i.2.1 + f.2.1 = 0 then none
  else
    match parseExp f.2.2 with
    | none => none
    | some x =>
      let x := x - f.2.1
      let r := roundFlt (f.1 * 10 ^ x.toNat) (10 ^ (-x).toNat)
      some ⟨sgn.1, r.1, r.2⟩

/-- `int(f * 2 ^ k)`: multiplying a binary64 by a power of two is exact, `int` truncates towards zero -/
def Flt.truncMul (f : Flt) (k : Nat) : Int :=
  let v : Nat := if 0 ≤ f.exp then f.mant * 2 ^ f.exp.toNat * k else f.mant * k / 2 ^ (-f.exp).toNat
  if f.neg then -(v : Int) else v

/-- the ASCII whitespace `int` and `float` ignore at both ends -/
def isPySpace (c : Char) : Bool := c = ' ' || (9 ≤ c.toNat && c.toNat ≤ 13)

/-- without whitespace at both ends -/
def stripSpaces (s : List Char) : List Char := ((s.dropWhile isPySpace).reverse.dropWhile isPySpace).reverse

/-- `int` and `float` allow single underscores between digits: the text without them; `prev` is the character before -/
def dropUnderscores (prev : Option Char) : List Char → Option (List Char)
  | [] => if prev = some '_' then none else some []
  | c :: cs =>
    if c = '_' then
      if prev.any Char.isDigit then dropUnderscores (some c) cs else none
    else if prev = some '_' ∧ c.isDigit = false then none
    else (dropUnderscores (some c) cs).map (c :: ·)

/-- `int(s)`, used at bloscpack/cli.py:303 and by argparse for `type=int`. Simplifications: digits and whitespace outside ASCII are
not accepted by the model, and the number of digits is not limited (4300 since Python 3.11). -/
def pyInt (s : List Char) : Option Int :=
  match dropUnderscores none (stripSpaces s) with
  | none => none
  | some t =>
    let sgn := takeSign t
    let d := takeDigits sgn.2 0 0
    if d.2.1 = 0 ∨ d.2.2 ≠ [] then none else some (if sgn.1 then -(d.1 : Int) else d.1)

/-- what `float` returns: a finite number (here before overflow, see `roundFlt`), an infinity, or not a number -/
inductive PyFloat where
  | finite (f : Flt)
  | infinity
  | nan

/-- `float(s)`, used at bloscpack/pretty.py:36 (`none` = ValueError). Simplification: digits and whitespace outside ASCII are not
accepted by the model. -/
def pyFloat (s : List Char) : Option PyFloat :=
  match dropUnderscores none (stripSpaces s) with
  | none => none
  | some t =>
    let word := (takeSign t).2.map Char.toLower
    if word = "inf".toList ∨ word = "infinity".toList then some .infinity
    else if word = "nan".toList then some .nan
    else (parseFloat t).map .finite

/-- `int(f * k)` for a power of two `k`: from `2 ^ 1024` on the product is infinite, and `int` raises `OverflowError`; `int` of a NaN
raises `ValueError` -/
def PyFloat.truncMul (f : PyFloat) (k : Nat) : Except Err Int :=
  match f with
  | .finite f => if (f.truncMul k).natAbs < 2 ^ 1024 then .ok (f.truncMul k) else .error .overflowError
  | .infinity => .error .overflowError
  | .nan => .error .valueError

/-- `reverse_pretty`, bloscpack/pretty.py:27-36. The empty string raises `IndexError` (`readable[-1]`). -/
def reversePretty (readable : List Char) : Except Err Int :=
  match readable.getLast? with
  | none => .error .indexError
  | some suffix =>
    match suffixValue suffix with
    | none => .error .valueError
    | some k =>
      match pyFloat readable.dropLast with
      | none => .error .valueError
      | some f => f.truncMul k

/-- `sorted(SUFFIXES.items(), key=lambda x: x[1])` reversed, bloscpack/constants.py:31-36, bloscpack/pretty.py:15 -/
def suffixesDescending : List (Char × Nat) := [('T', 2 ^ 40), ('G', 2 ^ 30), ('M', 2 ^ 20), ('K', 2 ^ 10), ('B', 2 ^ 0)]

/-- `round(x, 2)` in hundredths: `100 * x` rounded to the nearest integer, ties to even, for `x = m * 2 ^ e` -/
def roundHundredths (x : Nat × Int) : Nat := roundScaled (x.1 * 100) 1 (-x.2)

/-- `str(q / 100)`: at least one digit after the point, no superfluous zero. Simplification: `round(x, 2)` is the binary64
number nearest to `q / 100` and `str` writes the shortest decimal number that rounds to it; that is `q / 100` itself if it
has at most 15 digits, which is so for all sizes below `2 ^ 80`. -/
def hundredthsText (q : Nat) : List Char :=
  (toString (q / 100)).toList ++ '.' :: (if q % 10 = 0 then [Nat.digitChar (q % 100 / 10)] else [Nat.digitChar (q % 100 / 10), Nat.digitChar (q % 10)])

/-- the loop of `pretty_size`, bloscpack/pretty.py:15-19: the first suffix that is not too large. `size_in_bytes/lim` is
rounded to the nearest binary64 number. -/
def prettyLoop (size : Int) : List (Char × Nat) → Option (List Char)
  | [] => none
  | (suf, lim) :: rest =>
    if size < lim then prettyLoop size rest
    else some (hundredthsText (roundHundredths (roundFlt size.toNat lim)) ++ [suf])

/-- `pretty_size`, bloscpack/pretty.py:11-19; `None` for negative sizes -/
def prettySize (size_in_bytes : Int) : Option (List Char) :=
  if size_in_bytes = 0 then some ['0', 'B'] else prettyLoop size_in_bytes suffixesDescending

/-- `double_pretty_size`, bloscpack/pretty.py:22-24 -/
def doublePrettySize (size_in_bytes : Int) : List Char :=
  ((prettySize size_in_bytes).getD "None".toList) ++ " (".toList ++ (toString size_in_bytes).toList ++ "B)".toList

/-- `join_with_eol`, bloscpack/pretty.py:39-40 -/
def joinWithEol (items : List (List Char)) : List Char := (items.intersperse [',', ' ']).flatten ++ ['\n']

end Bloscpack
