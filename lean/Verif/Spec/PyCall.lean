import Verif.Model.Objects
/-
What a Python call `Name(key=value, …)` means whose values are literals: a reader for such texts, after the Python language reference
(section "Lexical analysis"). It knows nothing of how the texts are made.
-/
namespace Bloscpack.Spec

/-- the value of a hexadecimal digit -/
def hexDigit (c : Char) : Option Nat :=
  if '0' ≤ c ∧ c ≤ '9' then some (c.toNat - 48)
  else if 'a' ≤ c ∧ c ≤ 'f' then some (c.toNat - 97 + 10)
  else if 'A' ≤ c ∧ c ≤ 'F' then some (c.toNat - 65 + 10)
  else none

/-- the one character escapes in bytes literals -/
def escaped : Char → Option UInt8
  | '\\' => some 92
  | '\'' => some 39
  | '"' => some 34
  | 'a' => some 7
  | 'b' => some 8
  | 't' => some 9
  | 'n' => some 10
  | 'v' => some 11
  | 'f' => some 12
  | 'r' => some 13
  | _ => none

/-- What follows the opening `quote` of a bytes literal: the bytes up to the closing quote, and the text behind it. Only printable
ASCII characters may be in it. -/
def bytesBody (quote : Char) : List Char → Option (Bytes × List Char)
  | '\\' :: 'x' :: a :: b :: r =>
    match hexDigit a, hexDigit b with
    | some a, some b => (bytesBody quote r).map (fun x => (UInt8.ofNat (16 * a + b) :: x.1, x.2))
    | _, _ => none
  | '\\' :: c :: r =>
    match escaped c with
    | some v => (bytesBody quote r).map (fun x => (v :: x.1, x.2))
    | none => none
  | c :: r =>
    if c = quote then some ([], r)
    else if c ≠ '\\' ∧ ' ' ≤ c ∧ c ≤ '~' then (bytesBody quote r).map (fun x => (UInt8.ofNat c.toNat :: x.1, x.2))
    else none
  | [] => none

/-- What follows the opening quote of a string literal without escapes. -/
def strBody : List Char → Option (List Char × List Char)
  | c :: r =>
    if c = '\'' then some ([], r)
    else if c ≠ '\\' ∧ ' ' ≤ c ∧ c ≤ '~' then (strBody r).map (fun x => (c :: x.1, x.2))
    else none
  | [] => none

/-- The decimal digits at the beginning of a text, appended to the number `n`, and the text behind them. -/
def digits (n : Nat) : List Char → Nat × List Char
  | c :: r => if '0' ≤ c ∧ c ≤ '9' then digits (10 * n + (c.toNat - 48)) r else (n, c :: r)
  | [] => (n, [])

/-- A decimal integer: at least one digit. (Python's rule that there are no leading zeros is not needed.) -/
def natural : List Char → Option (Nat × List Char)
  | c :: r => if '0' ≤ c ∧ c ≤ '9' then some (digits 0 (c :: r)) else none
  | [] => none

/-- A literal at the beginning of a text, and the text behind it. -/
def literal : List Char → Option (ObjVal × List Char)
  | 'T' :: 'r' :: 'u' :: 'e' :: r => some (.bool true, r)
  | 'F' :: 'a' :: 'l' :: 's' :: 'e' :: r => some (.bool false, r)
  | 'b' :: '\'' :: r => (bytesBody '\'' r).map (fun x => (.bytes x.1, x.2))
  | 'b' :: '"' :: r => (bytesBody '"' r).map (fun x => (.bytes x.1, x.2))
  | '\'' :: r => (strBody r).map (fun x => (.str x.1, x.2))
  | '-' :: r => (natural r).map (fun x => (.int (-(x.1 : Int)), x.2))
  | r => (natural r).map (fun x => (.int x.1, x.2))

/-- A letter, a digit or an underscore. -/
def nameChar (c : Char) : Bool := ('a' ≤ c && c ≤ 'z') || ('A' ≤ c && c ≤ 'Z') || ('0' ≤ c && c ≤ '9') || c = '_'

/-- `key=value, …)` up to the end of the text; `fuel` is larger than the number of arguments. -/
def arguments : Nat → List Char → Option (List (String × ObjVal))
  | 0, _ => none
  | fuel + 1, text =>
    match text.dropWhile nameChar with
    | '=' :: r =>
      match literal r with
      | some (v, [')']) => some [(String.ofList (text.takeWhile nameChar), v)]
      | some (v, ',' :: ' ' :: r) => (arguments fuel r).map (fun l => (String.ofList (text.takeWhile nameChar), v) :: l)
      | _ => none
    | _ => none

/-- The call a text is: the name of what is called, and the keyword arguments. -/
def call (text : List Char) : Option (String × List (String × ObjVal)) :=
  match text.dropWhile nameChar with
  | ['(', ')'] => some (String.ofList (text.takeWhile nameChar), [])
  | '(' :: r => (arguments text.length r).map (fun l => (String.ofList (text.takeWhile nameChar), l))
  | _ => none

/-- an identifier, as far as characters go -/
def Identifier (s : String) : Prop := s.toList ≠ [] ∧ ∀ c ∈ s.toList, nameChar c = true

/-- Strings of printable ASCII characters without quotes and backslashes: for these the model's `repr` of strings is the real one. -/
def Plain (s : List Char) : Prop := ∀ c ∈ s, c ≠ '\'' ∧ c ≠ '\\' ∧ ' ' ≤ c ∧ c ≤ '~'

/-- A value that has a literal. -/
def HasLiteral : ObjVal → Prop
  | .str s => Plain s
  | .other _ => False
  | _ => True

end Bloscpack.Spec
