import Verif.Model.Env
import Verif.Model.Float
/-
Model of the JSON serializer: bloscpack/serializers.py:35-38 uses `json.dumps(x, separators=(',', ':'))` and
`json.loads` of Python's standard library (its default settings: `ensure_ascii`, `strict`). The library is not part of
/repo; this is a model of its documented behaviour. Not modelled: keys that are not strings, and the limit on the
number of digits of an integer that newer versions of Python have.
-/
namespace Bloscpack

/-- A Python character: any Unicode code point, surrogates included. -/
abbrev CodePoint := Fin 1114112

/-- Python `str` -/
abbrev PyStr := List CodePoint

/-- The Python objects that JSON texts stand for. A dict is the list of its items in insertion order. -/
inductive Json where
  | null
  | bool (b : Bool)
  | int (i : Int)
  | float (d : Double)
  | str (s : PyStr)
  | arr (l : List Json)
  | obj (l : List (PyStr × Json))

/-! ### `json.dumps` -/

/-- a hexadecimal digit, lower case -/
def hexDigit (n : Nat) : Char := Char.ofNat (if n < 10 then 48 + n else 87 + n)

/-- `'\\u{0:04x}'.format(n)` for `n < 65536` -/
def escapeUnit (n : Nat) : List Char :=
  ['\\', 'u', hexDigit (n / 4096 % 16), hexDigit (n / 256 % 16), hexDigit (n / 16 % 16), hexDigit (n % 16)]

/-- one character of a string, json.encoder `py_encode_basestring_ascii` -/
def escapeChar (c : CodePoint) : List Char :=
  if c.val = 34 then ['\\', '"']
  else if c.val = 92 then ['\\', '\\']
  else if c.val = 10 then ['\\', 'n']
  else if c.val = 13 then ['\\', 'r']
  else if c.val = 9 then ['\\', 't']
  else if c.val = 12 then ['\\', 'f']
  else if c.val = 8 then ['\\', 'b']
  else if 32 ≤ c.val ∧ c.val ≤ 126 then [Char.ofNat c.val]
  else if c.val < 65536 then escapeUnit c.val
  else escapeUnit (55296 + (c.val - 65536) / 1024) ++ escapeUnit (56320 + (c.val - 65536) % 1024)

def dumpsStr (s : PyStr) : List Char := '"' :: (s.flatMap escapeChar ++ ['"'])

/-- `int.__repr__` -/
def dumpsInt (i : Int) : List Char :=
  if i < 0 then '-' :: Nat.toDigits 10 i.natAbs else Nat.toDigits 10 i.natAbs

mutual
/-- `json.dumps(x, separators=(',', ':'))`, bloscpack/serializers.py:36 -/
def dumpsJson : Json → List Char
  | .null => ['n', 'u', 'l', 'l']
  | .bool true => ['t', 'r', 'u', 'e']
  | .bool false => ['f', 'a', 'l', 's', 'e']
  | .int i => dumpsInt i
  | .float d => dumpsDouble d
  | .str s => dumpsStr s
  | .arr l => '[' :: (dumpsElems l ++ [']'])
  | .obj l => '{' :: (dumpsItems l ++ ['}'])
/-- elements separated by commas -/
def dumpsElems : List Json → List Char
  | [] => []
  | v :: vs => dumpsJson v ++ (if vs.isEmpty then [] else ',' :: dumpsElems vs)
/-- items separated by commas -/
def dumpsItems : List (PyStr × Json) → List Char
  | [] => []
  | kv :: kvs => dumpsItem kv ++ (if kvs.isEmpty then [] else ',' :: dumpsItems kvs)
/-- `"key":value` -/
def dumpsItem : PyStr × Json → List Char
  | (k, v) => dumpsStr k ++ ':' :: dumpsJson v
end

/-! ### `json.loads` -/

/-- skip white space -/
def skipWs : List Char → List Char
  | [] => []
  | c :: cs => if c = ' ' ∨ c = '\t' ∨ c = '\n' ∨ c = '\r' then skipWs cs else c :: cs

def hexValue (c : Char) : Option Nat :=
  if 48 ≤ c.toNat ∧ c.toNat ≤ 57 then some (c.toNat - 48)
  else if 97 ≤ c.toNat ∧ c.toNat ≤ 102 then some (c.toNat - 87)
  else if 65 ≤ c.toNat ∧ c.toNat ≤ 70 then some (c.toNat - 55)
  else none

/-- four hexadecimal digits: `_decode_uXXXX` -/
def parseHex4 : List Char → Option (Nat × List Char)
  | a :: b :: c :: d :: r =>
    match hexValue a, hexValue b, hexValue c, hexValue d with
    | some a, some b, some c, some d => some (4096 * a + 256 * b + 16 * c + d, r)
    | _, _, _, _ => none
  | _ => none

def isHigh (n : Nat) : Bool := 55296 ≤ n && n ≤ 56319
def isLow (n : Nat) : Bool := 56320 ≤ n && n ≤ 57343

/-- the character a high and a low surrogate stand for -/
def joinSurrogates (h l : Nat) : Nat := 65536 + (h - 55296) * 1024 + (l - 56320)

/-- `chr(n)`; the numbers occurring here are all in range -/
def chr (n : Nat) : CodePoint := Fin.ofNat 1114112 n

/-- another `\uXXXX` that is a low surrogate, if it follows -/
def parseLow : List Char → Option (Nat × List Char)
  | '\\' :: 'u' :: r =>
    match parseHex4 r with
    | some (l, r') => if isLow l then some (l, r') else none
    | none => none
  | _ => none

/-- what follows `\u`: a pair of surrogates is one character -/
def parseUnicodeEscape (r : List Char) : Option (CodePoint × List Char) :=
  match parseHex4 r with
  | none => none
  | some (h, r') =>
    if isHigh h then
      match parseLow r' with
      | some (l, r'') => some (chr (joinSurrogates h l), r'')
      | none => some (chr h, r')
    else some (chr h, r')

/-- what follows a backslash -/
def parseEscape : List Char → Option (CodePoint × List Char)
  | [] => none
  | c :: r =>
    if c = 'u' then parseUnicodeEscape r
    else if c = '"' ∨ c = '\\' ∨ c = '/' then some (chr c.toNat, r)
    else if c = 'b' then some (chr 8, r)
    else if c = 'f' then some (chr 12, r)
    else if c = 'n' then some (chr 10, r)
    else if c = 'r' then some (chr 13, r)
    else if c = 't' then some (chr 9, r)
    else none

/-- the rest of a string after its opening quote: json.decoder `py_scanstring`. `fuel` bounds the number of
characters. -/
def scanString : Nat → List Char → Option (PyStr × List Char)
  | 0, _ => none
  | _ + 1, [] => none
  | fuel + 1, c :: r =>
    if c = '"' then some ([], r)
    else if c = '\\' then
      match parseEscape r with
      | none => none
      | some (x, r') => (scanString fuel r').map (fun y => (x :: y.1, y.2))
    else if c.toNat < 32 then none
    else (scanString fuel r).map (fun y => (chr c.toNat :: y.1, y.2))

/-- `NUMBER_RE` of json.scanner -/
def parseNumber (s : List Char) : Option (Json × List Char) :=
  match scanNumber s with
  | some (.inl i, r) => some (.int i, r)
  | some (.inr d, r) => some (.float d, r)
  | none => none

/-- `d[k] = v` -/
def dictSet (d : List (PyStr × Json)) (k : PyStr) (v : Json) : List (PyStr × Json) :=
  if (d.map (·.1)).contains k then d.map (fun x => if x.1 = k then (k, v) else x) else d ++ [(k, v)]

/-- `dict(pairs)` -/
def dictOfPairs (l : List (PyStr × Json)) : List (PyStr × Json) := l.foldl (fun d x => dictSet d x.1 x.2) []

/-- `Infinity` after its first letter -/
def infinityTail : List Char := ['n', 'f', 'i', 'n', 'i', 't', 'y']

/-- the bits of infinity -/
def infinity : Magnitude := Fin.ofNat _ (2047 * 2 ^ 52)

mutual
/-- `_scan_once` of json.scanner; `fuel` bounds the recursion -/
def parseValue : Nat → List Char → Option (Json × List Char)
  | 0, _ => none
  | _ + 1, [] => none
  | fuel + 1, c :: r =>
    if c = '"' then (scanString (r.length + 1) r).map (fun y => (.str y.1, y.2))
    else if c = '[' then
      if (skipWs r).head? = some ']' then some (.arr [], (skipWs r).drop 1)
      else (parseElems fuel (skipWs r)).map (fun y => (.arr y.1, y.2))
    else if c = '{' then
      if (skipWs r).head? = some '}' then some (.obj [], (skipWs r).drop 1)
      else (parseItems fuel (skipWs r)).map (fun y => (.obj (dictOfPairs y.1), y.2))
    else if c = 'n' then (if r.take 3 = ['u', 'l', 'l'] then some (.null, r.drop 3) else none)
    else if c = 't' then (if r.take 3 = ['r', 'u', 'e'] then some (.bool true, r.drop 3) else none)
    else if c = 'f' then (if r.take 4 = ['a', 'l', 's', 'e'] then some (.bool false, r.drop 4) else none)
    else if c = 'N' then (if r.take 2 = ['a', 'N'] then some (.float .nan, r.drop 2) else none)
    else if c = 'I' then (if r.take 7 = infinityTail then some (.float (.num false infinity), r.drop 7) else none)
    else if c = '-' ∧ r.take 8 = 'I' :: infinityTail then some (.float (.num true infinity), r.drop 8)
    else parseNumber (c :: r)
/-- `JSONArray` of json.decoder, after the opening bracket and white space -/
def parseElems : Nat → List Char → Option (List Json × List Char)
  | 0, _ => none
  | fuel + 1, s =>
    match parseValue fuel s with
    | none => none
    | some (v, r) =>
      if (skipWs r).head? = some ']' then some ([v], (skipWs r).drop 1)
      else if (skipWs r).head? = some ',' then
        (parseElems fuel (skipWs ((skipWs r).drop 1))).map (fun y => (v :: y.1, y.2))
      else none
/-- `JSONObject` of json.decoder, after the opening brace and white space -/
def parseItems : Nat → List Char → Option (List (PyStr × Json) × List Char)
  | 0, _ => none
  | fuel + 1, s =>
    if s.head? = some '"' then
      match scanString (s.length + 1) (s.drop 1) with
      | none => none
      | some (k, r) =>
        if (skipWs r).head? = some ':' then
          match parseValue fuel (skipWs ((skipWs r).drop 1)) with
          | none => none
          | some (v, r) =>
            if (skipWs r).head? = some '}' then some ([(k, v)], (skipWs r).drop 1)
            else if (skipWs r).head? = some ',' then
              (parseItems fuel (skipWs ((skipWs r).drop 1))).map (fun y => ((k, v) :: y.1, y.2))
            else none
        else none
    else none
end

/-- `json.loads(text)`: one value, possibly surrounded by white space (a byte order mark is not a value and rejected) -/
def loadsText (s : List Char) : Except Err Json :=
  match parseValue (2 * s.length + 2) (skipWs s) with
  | some (v, r) => if skipWs r = [] then .ok v else .error .jsonDecodeError
  | none => .error .jsonDecodeError

/-- `json.loads(data.decode())`, bloscpack/serializers.py:37 and bloscpack/file_io.py:231-233. Bytes that are not UTF-8
raise `UnicodeDecodeError`, a `ValueError`. -/
def loadsJson (b : Bytes) : Except Err Json :=
  match ByteArray.utf8Decode? b.toByteArray with
  | some cs => loadsText cs.toList
  | none => .error .valueError

end Bloscpack
