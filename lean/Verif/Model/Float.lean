import Verif.Model.Pretty
/-
Python's floats, as the json module reads and writes them. They are not part of /repo: `json.dumps` and `json.loads`, used at
bloscpack/serializers.py:35-38, convert them with `float.__repr__` and `float`. This is a model of their documented behaviour.
-/
namespace Bloscpack

/-- The lower 63 bits of a binary64 number that is not NaN: 11 bits of exponent, 52 of fraction. The largest one is infinity, and larger bits
are a larger number. -/
abbrev Magnitude := Fin (2047 * 2 ^ 52 + 1)

/-- a Python `float`: all NaNs are written and read alike, so they are one here -/
inductive Double where
  | num (neg : Bool) (m : Magnitude)
  | nan
  deriving DecidableEq

/-- the number these bits stand for, times 2^1074 (infinity as if the exponent went on) -/
def scaled (b : Nat) : Nat :=
  if b / 2 ^ 52 = 0 then b % 2 ^ 52 else (2 ^ 52 + b % 2 ^ 52) * 2 ^ (b / 2 ^ 52 - 1)

/-- the last `i` of 63 steps towards the largest bits whose number is not above `num / den`, from the highest bit on -/
def floorBits (num den : Nat) : Nat → Nat → Nat
  | 0, b => b
  | i + 1, b => floorBits num den i (if b + 2 ^ i ≤ 2047 * 2 ^ 52 ∧ scaled (b + 2 ^ i) * den ≤ num * 2 ^ 1074 then b + 2 ^ i else b)

/-- the bits of the number nearest to `num / den`, of two the even one -/
def roundBits (num den : Nat) : Nat :=
  let b := floorBits num den 63 0
  if b = 2047 * 2 ^ 52 then b
  else
    let below := num * 2 ^ 1074 - scaled b * den
    let above := scaled (b + 1) * den - num * 2 ^ 1074
    if below < above then b else if above < below then b + 1 else if b % 2 = 0 then b else b + 1

/-- `float` of the decimal number `± m * 10 ^ x` -/
def doubleOf (neg : Bool) (m : Nat) (x : Int) : Double :=
  .num neg (Fin.ofNat _ (roundBits (m * 10 ^ x.toNat) (10 ^ (-x).toNat)))

/-- the fraction of a number, if one follows: the digits up to its end, how many of them belong to it, and what follows -/
def numberFraction (n : Nat) : List Char → Nat × Nat × List Char
  | '.' :: r => if (takeDigits r n 0).2.1 = 0 then (n, 0, '.' :: r) else takeDigits r n 0
  | r => (n, 0, r)

/-- the exponent of a number, if one follows, and what follows -/
def numberExponent : List Char → Option (Int × List Char)
  | c :: r =>
    if c = 'e' ∨ c = 'E' then
      if (takeDigits (takeSign r).2 0 0).2.1 = 0 then none
      else
        some (if (takeSign r).1 then -((takeDigits (takeSign r).2 0 0).1 : Int) else (takeDigits (takeSign r).2 0 0).1,
          (takeDigits (takeSign r).2 0 0).2.2)
    else none
  | [] => none

/-- digits of an integer without superfluous zeros, and what follows -/
def parseNat : List Char → Option (Nat × List Char)
  | [] => none
  | c :: r =>
    if c = '0' then some (0, r)
    else if c.isDigit then some ((takeDigits (c :: r) 0 0).1, (takeDigits (c :: r) 0 0).2.2)
    else none

/-- optional minus sign -/
def takeMinus : List Char → Bool × List Char
  | '-' :: r => (true, r)
  | r => (false, r)

/-- `NUMBER_RE` of json.scanner, and what is made of a match: an `int`, or a `float` if there is a fraction or an exponent -/
def scanNumber (s : List Char) : Option ((Int ⊕ Double) × List Char) :=
  match parseNat (takeMinus s).2 with
  | none => none
  | some (n, r) =>
    match numberExponent (numberFraction n r).2.2 with
    | some (x, r') => some (.inr (doubleOf (takeMinus s).1 (numberFraction n r).1 (x - (numberFraction n r).2.1)), r')
    | none =>
      if (numberFraction n r).2.1 = 0 then some (.inl (if (takeMinus s).1 then -(n : Int) else n), r)
      else some (.inr (doubleOf (takeMinus s).1 (numberFraction n r).1 (-((numberFraction n r).2.1 : Int))), (numberFraction n r).2.2)

/-! ### `float.__repr__` -/

/-- exponents are written with a sign and two digits at least -/
def reprExponent (x : Int) : List Char :=
  (if x < 0 then '-' else '+') :: (if x.natAbs < 10 then '0' :: Nat.toDigits 10 x.natAbs else Nat.toDigits 10 x.natAbs)

/-- `0.ds * 10 ^ point`, as Python writes it -/
def reprDecimal (ds : List Char) (point : Int) : List Char :=
  if -4 < point ∧ point ≤ 16 then
    if point ≤ 0 then '0' :: '.' :: (List.replicate (-point).toNat '0' ++ ds)
    else if point.toNat < ds.length then ds.take point.toNat ++ '.' :: ds.drop point.toNat
    else ds ++ (List.replicate (point.toNat - ds.length) '0' ++ ['.', '0'])
  else if ds.length ≤ 1 then ds ++ 'e' :: reprExponent (point - 1)
  else ds.take 1 ++ '.' :: (ds.drop 1 ++ 'e' :: reprExponent (point - 1))

/-- without zeros at the end -/
def stripZeros (ds : List Char) : List Char := (ds.reverse.dropWhile (· = '0')).reverse

/-- the number of decimal digits before the point, if the number is 1 at least; else minus the number of zeros behind the point. `k` digits
behind the point were zeros so far. -/
def decimalPoint (b : Nat) : Nat → Nat → Int
  | 0, k => -(k : Int)
  | fuel + 1, k =>
    if k = 0 ∧ 2 ^ 1074 ≤ scaled b then (Nat.toDigits 10 (scaled b / 2 ^ 1074)).length
    else if 2 ^ 1074 ≤ scaled b * 10 ^ (k + 1) then -(k : Int)
    else decimalPoint b fuel (k + 1)

/-- the two numbers of `p` digits next to the number, as texts, the nearest one first -/
def reprCandidates (b : Nat) (p : Nat) : List (List Char) :=
  let point := decimalPoint b 400 0
  let num := scaled b * 10 ^ ((p : Int) - point).toNat
  let den := 2 ^ 1074 * 10 ^ (point - p).toNat
  let text := fun d : Nat => reprDecimal (stripZeros (Nat.toDigits 10 d)) (point + ((Nat.toDigits 10 d).length - p))
  let d := num / den
  if 2 * (num % den) ≤ den then [text d, text (d + 1)] else [text (d + 1), text d]

/-- the shortest text that reads back as the same number, of two the nearest one. The last text is never needed: seventeen digits are always
enough. -/
def reprMagnitude (m : Magnitude) : List Char :=
  ((List.range 17).flatMap (fun p => reprCandidates m.val (p + 1))).find? (fun t => scanNumber t = some (.inr (.num false m), []))
    |>.getD (Nat.toDigits 10 (scaled m.val * 5 ^ 1074) ++ ['e', '-', '1', '0', '7', '4'])

/-- `floatstr` of json.encoder, with the default `allow_nan` -/
def dumpsDouble : Double → List Char
  | .nan => ['N', 'a', 'N']
  | .num neg m =>
    (if neg then ['-'] else []) ++
      (if m.val = 2047 * 2 ^ 52 then ['I', 'n', 'f', 'i', 'n', 'i', 't', 'y']
      else if m.val = 0 then ['0', '.', '0']
      else reprMagnitude m)

end Bloscpack
