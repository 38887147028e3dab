import Verif.Model.Numpy
/-
A small numpy library for which the assumptions of the numpy theorems hold.
-/
namespace Bloscpack.Toy

/-- the toy library -/
def numpy : NumpyLib where
  printable := fun c => decide (161 ≤ c.val)
  scalar := fun s =>
    if s = pyStr "|u1" then some (s, 1) else if s = pyStr "<i4" then some (s, 4) else if s = pyStr "<f8" then some (s, 8)
    else if s = pyStr "|O" then some (s, 8) else if s = pyStr "|V3" then some (s, 3) else if s = pyStr "|S300" then some (s, 300)
    else if s = pyStr "i4" then some (pyStr "<i4", 4) else none

end Bloscpack.Toy
