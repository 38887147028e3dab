import Verif.Model.Repr
/-!
Python literals, after the section "Literals" of the Python language reference: the texts that spell strings, integers, tuples and lists.
Not included: octal escapes, `\N{…}`, prefixes and triple quotes of strings, concatenation, underscores, other bases, floats, bytes, dicts, sets,
names and comments.
-/
namespace Bloscpack.Spec

/-- a character -/
def ch (c : Char) : CodePoint := Fin.ofNat 1114112 c.toNat

/-- the characters of a string -/
def chars (s : String) : List CodePoint := s.toList.map ch

/-- a hexadecimal digit and its value -/
def HexDigit (c : CodePoint) (d : Nat) : Prop := (chars "0123456789abcdef")[d]? = some c ∨ (chars "0123456789ABCDEF")[d]? = some c

/-- a number to the base 16 -/
inductive HexNumber : PyStr → Nat → Prop where
  | none : HexNumber [] 0
  | digit (t : PyStr) (v : Nat) (c : CodePoint) (d : Nat) : HexNumber t v → HexDigit c d → HexNumber (t ++ [c]) (16 * v + d)

/-- what may follow a backslash in a string, and the characters it stands for -/
inductive Escape : PyStr → PyStr → Prop where
  | newline : Escape [ch '\n'] []
  | same (c : CodePoint) : c ∈ chars "\\'\"" → Escape [c] [c]
  | letter (c : CodePoint) (v : Nat) :
      (c, v) ∈ [(ch 'a', 7), (ch 'b', 8), (ch 't', 9), (ch 'n', 10), (ch 'v', 11), (ch 'f', 12), (ch 'r', 13)] → Escape [c] [chr v]
  | hex (c : CodePoint) (n : Nat) (t : PyStr) (v : CodePoint) :
      (c, n) ∈ [(ch 'x', 2), (ch 'u', 4), (ch 'U', 8)] → t.length = n → HexNumber t v.val → Escape (c :: t) [v]
  | other (c : CodePoint) : c ∉ chars "\n\\'\"abtnvfrxuUN01234567" → Escape [c] [ch '\\', c]

/-- what stands between the quotes, and the string it spells -/
inductive Quoted (quote : CodePoint) : PyStr → PyStr → Prop where
  | empty : Quoted quote [] []
  | plain (c : CodePoint) (t s : PyStr) : c ≠ quote → c ∉ chars "\\\n\r\x00" → Quoted quote t s → Quoted quote (c :: t) (c :: s)
  | escape (e x t s : PyStr) : Escape e x → Quoted quote t s → Quoted quote (ch '\\' :: (e ++ t)) (x ++ s)

/-- a decimal number without superfluous zeros -/
inductive Decimal : PyStr → Nat → Prop where
  | digit (c : CodePoint) (d : Nat) : (chars "0123456789")[d]? = some c → Decimal [c] d
  | more (t : PyStr) (v : Nat) (c : CodePoint) (d : Nat) : Decimal t v → v ≠ 0 → (chars "0123456789")[d]? = some c → Decimal (t ++ [c]) (10 * v + d)

/-- blanks and line ends -/
def Blanks (b : PyStr) : Prop := ∀ c ∈ b, c ∈ chars " \t\n\r\x0c"

mutual
/-- a text and the value it spells -/
inductive Literal : PyStr → PyLit → Prop where
  | str (quote : CodePoint) (t s : PyStr) : quote ∈ chars "'\"" → Quoted quote t s → Literal (quote :: (t ++ [quote])) (.str s)
  | nat (t : PyStr) (v : Nat) : Decimal t v → Literal t (.int v)
  | neg (t : PyStr) (v : Nat) : Decimal t v → Literal (ch '-' :: t) (.int (-v))
  | paren (b t b' : PyStr) (x : PyLit) : Blanks b → Literal t x → Blanks b' → Literal (ch '(' :: (b ++ (t ++ (b' ++ [ch ')'])))) x
  | unit (b : PyStr) : Blanks b → Literal (ch '(' :: (b ++ [ch ')'])) (.tuple [])
  | tuple (b t b' b'' u : PyStr) (x : PyLit) (l : List PyLit) : Blanks b → Literal t x → Blanks b' → Blanks b'' → Items (ch ')') u l →
      Literal (ch '(' :: (b ++ (t ++ (b' ++ ch ',' :: (b'' ++ u))))) (.tuple (x :: l))
  | list (b u : PyStr) (l : List PyLit) : Blanks b → Items (ch ']') u l → Literal (ch '[' :: (b ++ u)) (.list l)
/-- elements separated by commas, the last one with or without a comma behind it, and the closing bracket -/
inductive Items : CodePoint → PyStr → List PyLit → Prop where
  | none (close : CodePoint) : Items close [close] []
  | one (close : CodePoint) (t b : PyStr) (x : PyLit) : Literal t x → Blanks b → Items close (t ++ (b ++ [close])) [x]
  | more (close : CodePoint) (t b b' u : PyStr) (x : PyLit) (l : List PyLit) : Literal t x → Blanks b → Blanks b' → Items close u l →
      Items close (t ++ (b ++ ch ',' :: (b' ++ u))) (x :: l)
end

/-- a text that spells a value, with blanks around it -/
def Spells (s : PyStr) (x : PyLit) : Prop :=
  ∃ b t b', s = b ++ (t ++ b') ∧ (∀ c ∈ b, c ∈ chars " \t") ∧ Literal t x ∧ Blanks b'

end Bloscpack.Spec
