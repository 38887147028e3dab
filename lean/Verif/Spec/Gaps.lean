import Verif.Spec.Numpy
/-
Record types with gaps between or behind their fields, and what becomes of them.
-/
namespace Bloscpack.Spec

/-- the decimal digits of a number as a Python string -/
def decimalStr (n : Nat) : PyStr := (Nat.toDigits 10 n).map (fun c => chr c.toNat)

/-- `'f0'`, `'f1'`, …: what numpy calls the `i`-th field if it is given no name -/
def gapName (i : Nat) : PyStr := pyStr "f" ++ decimalStr i

/-- `'|V3'`: the type of 3 bytes of anything -/
def voidName (n : Nat) : PyStr := pyStr "|V" ++ decimalStr n

mutual
/-- the same type with a field of void type in place of each gap -/
def fill : DType → DType
  | .scalar s n => .scalar s n
  | .record fs size => .record (fillFrom fs 0 0 size) size
/-- the fields after the first `i`, which end at `pos`, of a record of `size` bytes -/
def fillFrom : Fields → Nat → Nat → Nat → Fields
  | .nil, i, pos, size =>
    if pos < size then .cons (gapName i) none pos [] (.scalar (voidName (size - pos)) (size - pos)) .nil else .nil
  | .cons name title offset shape t rest, i, pos, size =>
    if pos < offset then
      .cons (gapName i) none pos [] (.scalar (voidName (offset - pos)) (offset - pos))
        (.cons name title offset shape (fill t) (fillFrom rest (i + 2) (offset + prodShape shape * t.size) size))
    else .cons name title offset shape (fill t) (fillFrom rest (i + 1) (offset + prodShape shape * t.size) size)
end

mutual
/-- The fields are in the order of their positions, do not overlap and do not reach beyond the record, all the way down. -/
def Ordered : DType → Prop
  | .scalar _ _ => True
  | .record fs size => OrderedFrom fs 0 size
def OrderedFrom : Fields → Nat → Nat → Prop
  | .nil, pos, size => pos ≤ size
  | .cons _ _ offset shape t rest, pos, size => pos ≤ offset ∧ Ordered t ∧ OrderedFrom rest (offset + prodShape shape * t.size) size
end

mutual
/-- In no record two fields have the same name or title. -/
def Distinct : DType → Prop
  | .scalar _ _ => True
  | .record fs _ => fs.labels.Nodup ∧ DistinctFields fs
def DistinctFields : Fields → Prop
  | .nil => True
  | .cons _ _ _ _ t rest => Distinct t ∧ DistinctFields rest
end

/-- numpy knows the void types. -/
def KnowsVoid (lib : NumpyLib) : Prop := ∀ n, 0 < n → lib.scalar (voidName n) = some (voidName n, n)

/-- the fields of a record: name, title, offset, shape and type -/
def fieldList : Fields → List (PyStr × Option PyStr × Nat × List Nat × DType)
  | .nil => []
  | .cons name title offset shape t rest => (name, title, offset, shape, t) :: fieldList rest

end Bloscpack.Spec
