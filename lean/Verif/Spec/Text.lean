/-
Specification of numbers written as text: decimal digits, the integers and decimal numbers Python's `int` and `float` read, the
binary64 number nearest to a fraction, sizes with a suffix. It uses nothing of the model.
-/
namespace Bloscpack.Spec

/-- the number written by decimal digits, leading zeros allowed -/
def decimal (ds : List Char) : Nat := ds.foldl (fun v c => 10 * v + (c.toNat - 48)) 0

/-- nothing, or a point and fraction digits -/
def fractionText : Option (List Char) → List Char
  | none => []
  | some f => '.' :: f

/-- a decimal number without exponent: optional minus sign, integer digits, and possibly a point and fraction digits -/
def decimalText (neg : Bool) (ip : List Char) (fp : Option (List Char)) : List Char :=
  (if neg then ['-'] else []) ++ ip ++ fractionText fp

/-- the multiplier of each suffix -/
def multiplier : List (Char × Nat) := [('B', 1), ('K', 1024), ('M', 1048576), ('G', 1073741824), ('T', 1099511627776)]

/-- `m * 2^e` is the binary64 number nearest to `X / Y` (ties to even): `e` is the exponent of the unit in the last of 53 places,
`2^52 <= X / Y / 2^e < 2^53`, and `m` is the integer nearest to `X / Y / 2^e`. The exponent is not bounded. -/
def NearestDouble (X Y m : Nat) (e : Int) : Prop :=
  2 ^ 52 * (Y * 2 ^ e.toNat) ≤ X * 2 ^ (-e).toNat ∧ X * 2 ^ (-e).toNat < 2 ^ 53 * (Y * 2 ^ e.toNat) ∧
  2 * (m * (Y * 2 ^ e.toNat)) ≤ 2 * (X * 2 ^ (-e).toNat) + Y * 2 ^ e.toNat ∧
  2 * (X * 2 ^ (-e).toNat) ≤ 2 * (m * (Y * 2 ^ e.toNat)) + Y * 2 ^ e.toNat ∧
  (2 * (m * (Y * 2 ^ e.toNat)) = 2 * (X * 2 ^ (-e).toNat) + Y * 2 ^ e.toNat ∨
    2 * (X * 2 ^ (-e).toNat) = 2 * (m * (Y * 2 ^ e.toNat)) + Y * 2 ^ e.toNat → m % 2 = 0)

/-- the whitespace that may stand around a number -/
def blank (c : Char) : Prop := c ∈ [' ', '\t', '\n', '\x0b', '\x0c', '\r']

/-- `u` is `t` with single underscores put between digits -/
inductive Underscored : List Char → List Char → Prop
  | nil : Underscored [] []
  | char (c : Char) (u t : List Char) : c ≠ '_' → Underscored u t → Underscored (c :: u) (c :: t)
  | between (d e : Char) (u t : List Char) : d.isDigit = true → e.isDigit = true → Underscored (e :: u) (e :: t) →
      Underscored (d :: '_' :: e :: u) (d :: e :: t)

/-- `s` is `t`, possibly with whitespace around it and underscores between digits -/
def Written (s t : List Char) : Prop :=
  ∃ a u b, s = a ++ u ++ b ∧ (∀ c ∈ a, blank c) ∧ (∀ c ∈ b, blank c) ∧ Underscored u t

/-- an optional sign -/
def signTexts : List (Bool × List Char) := [(false, []), (false, ['+']), (true, ['-'])]

/-- with the sign -/
def signed (neg : Bool) (n : Nat) : Int := if neg then -(n : Int) else n

/-- decimal digits, at least one -/
def Digits (ds : List Char) : Prop := ds ≠ [] ∧ ∀ c ∈ ds, c.isDigit = true

/-- `s` is a way of writing the integer `i`: an optional sign and decimal digits -/
def IntText (s : List Char) (i : Int) : Prop :=
  ∃ neg sign ds, (neg, sign) ∈ signTexts ∧ Digits ds ∧ Written s (sign ++ ds) ∧ i = signed neg (decimal ds)

/-- `s` is the exponent part of a decimal number: nothing, or a letter `e`, an optional sign and digits -/
def ExpText (s : List Char) (x : Int) : Prop :=
  (s = [] ∧ x = 0) ∨
  ∃ e neg sign ds, (e = 'e' ∨ e = 'E') ∧ (neg, sign) ∈ signTexts ∧ Digits ds ∧ s = e :: (sign ++ ds) ∧ x = signed neg (decimal ds)

/-- `s` is a way of writing the number `± n * 10^x`: an optional sign, digits with an optional point (before, between or after
them), and an optional exponent. `n` is the number written by all the digits; the digits after the point lower `x`. -/
def FloatText (s : List Char) (neg : Bool) (n : Nat) (x : Int) : Prop :=
  ∃ sign ip fp ex y, (neg, sign) ∈ signTexts ∧ (∀ c ∈ ip, c.isDigit = true) ∧ (∀ c ∈ fp.getD [], c.isDigit = true) ∧
    (ip ≠ [] ∨ fp.getD [] ≠ []) ∧ ExpText ex y ∧ Written s (sign ++ (ip ++ (fractionText fp ++ ex))) ∧
    n = decimal (ip ++ fp.getD []) ∧ x = y - (fp.getD []).length

/-- `s` is one of these words, with an optional sign, in small letters or capitals -/
def WordText (words : List (List Char)) (s : List Char) : Prop :=
  ∃ neg sign w, (neg, sign) ∈ signTexts ∧ w.map Char.toLower ∈ words ∧ Written s (sign ++ w)

/-- `n * 10^x` units of `k` bytes are `r` bytes: the nearest binary64 number of units, rounded towards zero to whole bytes -/
def BytesOf (n : Nat) (x : Int) (k r : Nat) : Prop :=
  (n = 0 ∧ r = 0) ∨
  (0 < n ∧ ∃ m e, NearestDouble (n * 10 ^ x.toNat) (10 ^ (-x).toNat) m e ∧
    r * 2 ^ (-e).toNat ≤ m * 2 ^ e.toNat * k ∧ m * 2 ^ e.toNat * k < (r + 1) * 2 ^ (-e).toNat)

/-- `v` is a number of units with a suffix, and means `i` bytes -/
def UnitsText (v : List Char) (i : Int) : Prop :=
  ∃ s suffix k neg n x r, v = s ++ [suffix] ∧ (suffix, k) ∈ multiplier ∧ FloatText s neg n x ∧ BytesOf n x k r ∧ r < 2 ^ 1024 ∧
    i = signed neg r

/-- `v` is an infinite number of bytes: a word for infinity with a suffix, or a number beyond the range of binary64 -/
def InfiniteText (v : List Char) : Prop :=
  ∃ s suffix k, v = s ++ [suffix] ∧ (suffix, k) ∈ multiplier ∧
    (WordText ["inf".toList, "infinity".toList] s ∨ ∃ neg n x r, FloatText s neg n x ∧ BytesOf n x k r ∧ 2 ^ 1024 ≤ r)

/-- what the texts for a chunk size mean -/
inductive SizeText (v : List Char) : Int → Prop
  | max : v = "max".toList → SizeText v 2147483631
  | bytes (i : Int) : IntText v i → SizeText v i
  | units (i : Int) : UnitsText v i → SizeText v i

end Bloscpack.Spec
