import Verif.Model.Json
/-
Model of `repr` and `ast.literal_eval` for the Python values that dtype descriptions consist of: strings, integers, tuples and
lists. Used at bloscpack/numpy_io.py:53-55 and 136. Both belong to Python, not to /repo; this models their documented behaviour.
-/
namespace Bloscpack

/-- the Python values dtype descriptions consist of -/
inductive PyLit where
  | str (s : PyStr)
  | int (i : Int)
  | tuple (l : List PyLit)
  | list (l : List PyLit)

/-- a Python string from a Lean one -/
def pyStr (s : String) : PyStr := s.toList.map (fun c => chr c.toNat)

/-! ### `repr` -/

/-- a hexadecimal digit, lower case, as a code point -/
def hexCode (d : Nat) : CodePoint := chr (if d < 10 then 48 + d else 87 + d)

/-- `n` hexadecimal digits of `v` -/
def hexText : Nat → Nat → PyStr
  | 0, _ => []
  | n + 1, v => hexCode (v / 16 ^ n % 16) :: hexText n v

/-- one character of a string between quotes: `unicode_repr` in CPython's Objects/unicodeobject.c. `printable` is
`str.isprintable`, which depends on the Unicode version. -/
def reprChar (printable : CodePoint → Bool) (quote : Nat) (c : CodePoint) : PyStr :=
  if c.val = quote ∨ c.val = 92 then [chr 92, c]
  else if c.val = 9 then [chr 92, chr 116]
  else if c.val = 10 then [chr 92, chr 110]
  else if c.val = 13 then [chr 92, chr 114]
  else if c.val < 32 ∨ c.val = 127 then chr 92 :: chr 120 :: hexText 2 c.val
  else if c.val < 127 then [c]
  else if printable c then [c]
  else if c.val ≤ 255 then chr 92 :: chr 120 :: hexText 2 c.val
  else if c.val ≤ 65535 then chr 92 :: chr 117 :: hexText 4 c.val
  else chr 92 :: chr 85 :: hexText 8 c.val

/-- the quote `repr` uses: a double quote only if that saves escaping -/
def reprQuote (s : PyStr) : Nat := if chr 39 ∈ s ∧ chr 34 ∉ s then 34 else 39

/-- `repr` of a string -/
def reprStr (printable : CodePoint → Bool) (s : PyStr) : PyStr :=
  chr (reprQuote s) :: (s.flatMap (reprChar printable (reprQuote s)) ++ [chr (reprQuote s)])

/-- `repr` of an integer -/
def reprInt (i : Int) : PyStr := (dumpsInt i).map (fun c => chr c.toNat)

mutual
/-- `repr`; a tuple with one element has a trailing comma -/
def reprLit (printable : CodePoint → Bool) : PyLit → PyStr
  | .str s => reprStr printable s
  | .int i => reprInt i
  | .tuple [x] => chr 40 :: (reprLit printable x ++ [chr 44, chr 41])
  | .tuple l => chr 40 :: (reprLits printable l ++ [chr 41])
  | .list l => chr 91 :: (reprLits printable l ++ [chr 93])
/-- elements separated by a comma and a space -/
def reprLits (printable : CodePoint → Bool) : List PyLit → PyStr
  | [] => []
  | x :: l => reprLit printable x ++ (if l.isEmpty then [] else chr 44 :: chr 32 :: reprLits printable l)
end

/-! ### `ast.literal_eval` -/

/-- value of a hexadecimal digit -/
def hexVal (c : CodePoint) : Option Nat :=
  if 48 ≤ c.val ∧ c.val ≤ 57 then some (c.val - 48)
  else if 97 ≤ c.val ∧ c.val ≤ 102 then some (c.val - 87)
  else if 65 ≤ c.val ∧ c.val ≤ 70 then some (c.val - 55)
  else none

/-- exactly `n` hexadecimal digits, appended to the number `acc` -/
def takeHex : Nat → Nat → PyStr → Option (Nat × PyStr)
  | 0, acc, r => some (acc, r)
  | _ + 1, _, [] => none
  | n + 1, acc, c :: r =>
    match hexVal c with
    | some d => takeHex n (16 * acc + d) r
    | none => none

/-- a character given by `n` hexadecimal digits -/
def hexEscape (n : Nat) (r : PyStr) : Option (PyStr × PyStr) :=
  match takeHex n 0 r with
  | some (v, r') => if v < 1114112 then some ([chr v], r') else none
  | none => none

/-- what follows a backslash in a string literal. Simplification: octal escapes and `\N{…}` are not accepted. -/
def unescape : PyStr → Option (PyStr × PyStr)
  | [] => none
  | c :: r =>
    if c.val = 10 then some ([], r)
    else if c.val = 92 ∨ c.val = 39 ∨ c.val = 34 then some ([c], r)
    else if c.val = 97 then some ([chr 7], r)
    else if c.val = 98 then some ([chr 8], r)
    else if c.val = 102 then some ([chr 12], r)
    else if c.val = 110 then some ([chr 10], r)
    else if c.val = 114 then some ([chr 13], r)
    else if c.val = 116 then some ([chr 9], r)
    else if c.val = 118 then some ([chr 11], r)
    else if c.val = 120 then hexEscape 2 r
    else if c.val = 117 then hexEscape 4 r
    else if c.val = 85 then hexEscape 8 r
    else if (48 ≤ c.val ∧ c.val ≤ 55) ∨ c.val = 78 then none
    else some ([chr 92, c], r)

/-- the rest of a string literal after its opening quote; it ends on the same line -/
def scanLit (quote : Nat) : Nat → PyStr → Option (PyStr × PyStr)
  | 0, _ => none
  | _ + 1, [] => none
  | fuel + 1, c :: r =>
    if c.val = quote then some ([], r)
    else if c.val = 92 then
      match unescape r with
      | none => none
      | some (x, r') => (scanLit quote fuel r').map (fun y => (x ++ y.1, y.2))
    else if c.val = 10 ∨ c.val = 13 ∨ c.val = 0 then none
    else (scanLit quote fuel r).map (fun y => (c :: y.1, y.2))

/-- a string literal after its opening quote. Simplification: no triple-quoted strings, prefixes or concatenation. -/
def parseStrLit (quote : Nat) (r : PyStr) : Option (PyLit × PyStr) :=
  match scanLit quote (r.length + 1) r with
  | none => none
  | some (s, r') => if s = [] ∧ r'.head?.any (fun c => c.val = quote) then none else some (.str s, r')

/-- blanks and line ends -/
def isBlank (c : CodePoint) : Bool := c.val = 32 || c.val = 9 || c.val = 10 || c.val = 13 || c.val = 12

def skipBlank : PyStr → PyStr
  | [] => []
  | c :: r => if isBlank c then skipBlank r else c :: r

/-- leading decimal digits: their value and the rest -/
def takeDecimal : PyStr → Nat → Nat × PyStr
  | [], v => (v, [])
  | c :: r, v => if 48 ≤ c.val ∧ c.val ≤ 57 then takeDecimal r (10 * v + (c.val - 48)) else (v, c :: r)

/-- digits without superfluous zeros, then a blank, a comma, a closing bracket or the end. Simplification: other
numbers (floats, complex, other bases, underscores) are not accepted. -/
def parseNatLit : PyStr → Option (Nat × PyStr)
  | [] => none
  | c :: r =>
    let y := if c.val = 48 then (0, r) else takeDecimal (c :: r) 0
    if 48 ≤ c.val ∧ c.val ≤ 57 ∧ y.2.head?.all (fun d => isBlank d || d.val = 44 || d.val = 41 || d.val = 93) then some y else none

/-- an integer with an optional minus sign -/
def parseIntLit : PyStr → Option (PyLit × PyStr)
  | [] => none
  | c :: r =>
    if c.val = 45 then (parseNatLit r).map (fun y => (.int (-(y.1 : Int)), y.2))
    else (parseNatLit (c :: r)).map (fun y => (.int y.1, y.2))

mutual
/-- an expression; `fuel` bounds the recursion -/
def parseLit : Nat → PyStr → Option (PyLit × PyStr)
  | 0, _ => none
  | _ + 1, [] => none
  | fuel + 1, c :: r =>
    if c.val = 39 ∨ c.val = 34 then parseStrLit c.val r
    else if c.val = 40 then
      if (skipBlank r).head? = some (chr 41) then some (.tuple [], (skipBlank r).drop 1)
      else
        match parseLit fuel (skipBlank r) with
        | none => none
        | some (x, r) =>
          if (skipBlank r).head? = some (chr 41) then some (x, (skipBlank r).drop 1)
          else if (skipBlank r).head? = some (chr 44) then
            (parseLits fuel 41 (skipBlank ((skipBlank r).drop 1))).map (fun y => (.tuple (x :: y.1), y.2))
          else none
    else if c.val = 91 then (parseLits fuel 93 (skipBlank r)).map (fun y => (.list y.1, y.2))
    else parseIntLit (c :: r)
/-- elements up to the closing bracket; a comma before it is allowed -/
def parseLits : Nat → Nat → PyStr → Option (List PyLit × PyStr)
  | 0, _, _ => none
  | fuel + 1, close, s =>
    if s.head? = some (chr close) then some ([], s.drop 1)
    else
      match parseLit fuel s with
      | none => none
      | some (x, r) =>
        if (skipBlank r).head? = some (chr close) then some ([x], (skipBlank r).drop 1)
        else if (skipBlank r).head? = some (chr 44) then
          (parseLits fuel close (skipBlank ((skipBlank r).drop 1))).map (fun y => (x :: y.1, y.2))
        else none
end

/-- `ast.literal_eval(s)`; `none`: `ValueError` or `SyntaxError`. Simplification: literals of other kinds (floats, bytes, dicts,
sets, `True`, `False`, `None`, a tuple without parentheses) are not accepted. -/
def literalEval (s : PyStr) : Option PyLit :=
  match parseLit (2 * s.length + 2) (s.dropWhile (fun c => c.val = 32 || c.val = 9)) with
  | some (x, r) => if skipBlank r = [] then some x else none
  | none => none

end Bloscpack
