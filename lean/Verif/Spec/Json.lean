import Verif.Model.Json
/-!
What the claims about JSON say: pairs of surrogates, and the objects that are Python objects.
-/
namespace Bloscpack.Spec

/-- A pair of adjacent characters that are a high and a low surrogate. -/
def SurrogatePair (h l : CodePoint) : Prop := 0xD800 ≤ h.val ∧ h.val ≤ 0xDBFF ∧ 0xDC00 ≤ l.val ∧ l.val ≤ 0xDFFF

instance (h l : CodePoint) : Decidable (SurrogatePair h l) := by unfold SurrogatePair; infer_instance

/-- no high surrogate of the string is directly followed by a low one -/
def noPairs : PyStr → Bool
  | h :: l :: r => !decide (SurrogatePair h l) && noPairs (l :: r)
  | _ => true

/-- every adjacent pair of surrogates replaced by the character it stands for in UTF-16 -/
def joinPairs : PyStr → PyStr
  | [] => []
  | [c] => [c]
  | h :: l :: r =>
    if SurrogatePair h l then Fin.ofNat 1114112 (0x10000 + (h.val - 0xD800) * 0x400 + (l.val - 0xDC00)) :: joinPairs r
    else h :: joinPairs (l :: r)

mutual
/-- no string in the object, keys included, has adjacent surrogates -/
def pairFree : Json → Bool
  | .str s => noPairs s
  | .arr l => pairFreeElems l
  | .obj l => pairFreeItems l
  | _ => true
def pairFreeElems : List Json → Bool
  | [] => true
  | v :: vs => pairFree v && pairFreeElems vs
def pairFreeItems : List (PyStr × Json) → Bool
  | [] => true
  | kv :: kvs => pairFreeItem kv && pairFreeItems kvs
def pairFreeItem : PyStr × Json → Bool
  | (k, v) => noPairs k && pairFree v
end

mutual
/-- the keys of every dict in the object are different, as they are in Python -/
def isObject : Json → Bool
  | .arr l => isObjectElems l
  | .obj l => decide (l.map (·.1)).Nodup && isObjectItems l
  | _ => true
def isObjectElems : List Json → Bool
  | [] => true
  | v :: vs => isObject v && isObjectElems vs
def isObjectItems : List (PyStr × Json) → Bool
  | [] => true
  | kv :: kvs => isObjectItem kv && isObjectItems kvs
def isObjectItem : PyStr × Json → Bool
  | (_, v) => isObject v
end

mutual
/-- the object with the surrogate pairs of all its strings joined -/
def joined : Json → Json
  | .null => .null
  | .bool b => .bool b
  | .int i => .int i
  | .float d => .float d
  | .str s => .str (joinPairs s)
  | .arr l => .arr (joinedElems l)
  | .obj l => .obj (dictOfPairs (joinedItems l))
def joinedElems : List Json → List Json
  | [] => []
  | v :: vs => joined v :: joinedElems vs
def joinedItems : List (PyStr × Json) → List (PyStr × Json)
  | [] => []
  | kv :: kvs => joinedItem kv :: joinedItems kvs
def joinedItem : PyStr × Json → PyStr × Json
  | (k, v) => (joinPairs k, joined v)
end

end Bloscpack.Spec
