import Verif.Model.Json
import Verif.Spec.Json
import Verif.Spec.JsonNumber
/-!
JSON texts, after RFC 8259, and what they mean in Python, which in addition reads the names NaN and Infinity.
-/
namespace Bloscpack.Spec

/-- white space, section 2 of the RFC -/
def JsonSpace (w : List Char) : Prop := ∀ c ∈ w, c ∈ [' ', '\t', '\n', '\r']

/-- a hexadecimal digit and its value -/
def JsonHex (c : Char) (d : Nat) : Prop := "0123456789abcdef".toList[d]? = some c ∨ "0123456789ABCDEF".toList[d]? = some c

/-- one character between the quotes of a string, section 7, and the code point it stands for -/
inductive JsonChar : List Char → Nat → Prop where
  | plain (c : Char) : c ≠ '"' → c ≠ '\\' → 0x20 ≤ c.toNat → JsonChar [c] c.toNat
  | short (c : Char) (n : Nat) :
      (c, n) ∈ [('"', 0x22), ('\\', 0x5C), ('/', 0x2F), ('b', 8), ('f', 0xC), ('n', 0xA), ('r', 0xD), ('t', 9)] → JsonChar ['\\', c] n
  | unicode (a b c d : Char) (i j k l : Nat) : JsonHex a i → JsonHex b j → JsonHex c k → JsonHex d l →
      JsonChar ['\\', 'u', a, b, c, d] (4096 * i + 256 * j + 16 * k + l)

/-- what stands between the quotes of a string and its code points; characters outside the Basic Multilingual Plane may be escaped as a pair of
surrogates, which are two code points here -/
inductive JsonChars : List Char → PyStr → Prop where
  | nil : JsonChars [] []
  | cons (e t : List Char) (n : Nat) (s : PyStr) : JsonChar e n → JsonChars t s → JsonChars (e ++ t) (Fin.ofNat 1114112 n :: s)

/-- a text in quotes and the string it spells: pairs of surrogates stand for one character -/
def JsonString (t : List Char) (s : PyStr) : Prop := ∃ u s', t = '"' :: (u ++ ['"']) ∧ JsonChars u s' ∧ s = joinPairs s'

/-- the dict of these items: its keys are those of the items, in the order in which they first occur, each with the value of its last occurrence -/
def DictOf (items d : List (PyStr × Json)) : Prop :=
  d.map (·.1) = (items.map (·.1)).eraseDups ∧
  ∀ k v, (k, v) ∈ d → ∃ before after, items = before ++ (k, v) :: after ∧ k ∉ after.map (·.1)

mutual
/-- a text and the value it spells, sections 3 to 7 -/
inductive JsonValue : List Char → Json → Prop where
  | null : JsonValue "null".toList .null
  | true : JsonValue "true".toList (.bool true)
  | false : JsonValue "false".toList (.bool false)
  | nat (t : List Char) (v : Nat) : JsonNat t v → JsonValue t (.int v)
  | neg (t : List Char) (v : Nat) : JsonNat t v → JsonValue ('-' :: t) (.int (-v))
  | float (t : List Char) (d : Double) : JsonFloat t d → JsonValue t (.float d)
  | nan : JsonValue "NaN".toList (.float .nan)
  | infinity : JsonValue "Infinity".toList (.float (.num false (Fin.ofNat _ (2047 * 2 ^ 52))))
  | negInfinity : JsonValue "-Infinity".toList (.float (.num true (Fin.ofNat _ (2047 * 2 ^ 52))))
  | str (t : List Char) (s : PyStr) : JsonString t s → JsonValue t (.str s)
  | emptyArr (w : List Char) : JsonSpace w → JsonValue ('[' :: (w ++ [']'])) (.arr [])
  | arr (w t : List Char) (l : List Json) : JsonSpace w → JsonElements t l → JsonValue ('[' :: (w ++ (t ++ [']']))) (.arr l)
  | emptyObj (w : List Char) : JsonSpace w → JsonValue ('{' :: (w ++ ['}'])) (.obj [])
  | obj (w t : List Char) (l d : List (PyStr × Json)) : JsonSpace w → JsonMembers t l → DictOf l d → JsonValue ('{' :: (w ++ (t ++ ['}']))) (.obj d)
/-- values separated by commas, with white space behind them -/
inductive JsonElements : List Char → List Json → Prop where
  | one (t w : List Char) (v : Json) : JsonValue t v → JsonSpace w → JsonElements (t ++ w) [v]
  | more (t w w' u : List Char) (v : Json) (l : List Json) : JsonValue t v → JsonSpace w → JsonSpace w' → JsonElements u l →
      JsonElements (t ++ (w ++ ',' :: (w' ++ u))) (v :: l)
/-- `"key" : value` separated by commas, with white space behind them -/
inductive JsonMembers : List Char → List (PyStr × Json) → Prop where
  | one (t w : List Char) (k : PyStr) (v : Json) : JsonMember t k v → JsonSpace w → JsonMembers (t ++ w) [(k, v)]
  | more (t w w' u : List Char) (k : PyStr) (v : Json) (l : List (PyStr × Json)) : JsonMember t k v → JsonSpace w → JsonSpace w' → JsonMembers u l →
      JsonMembers (t ++ (w ++ ',' :: (w' ++ u))) ((k, v) :: l)
/-- `"key" : value` -/
inductive JsonMember : List Char → PyStr → Json → Prop where
  | mk (t w w' u : List Char) (k : PyStr) (v : Json) : JsonString t k → JsonSpace w → JsonSpace w' → JsonValue u v →
      JsonMember (t ++ (w ++ ':' :: (w' ++ u))) k v
end

/-- a JSON text: a value with white space around it, section 2 -/
def JsonText (s : List Char) (v : Json) : Prop := ∃ w t w', s = w ++ (t ++ w') ∧ JsonSpace w ∧ JsonValue t v ∧ JsonSpace w'

end Bloscpack.Spec
