import Verif
import Lean
open Lean
/-- print the axioms of the theorems named in /tmp/claims.txt -/
def main' : CoreM Unit := do
  let names := (← IO.FS.lines "/tmp/claims.txt")
  for n in names do
    let ax ← collectAxioms n.toName
    IO.println s!"{n}: {", ".intercalate ((ax.toList.map toString).mergeSort)}"
#eval main'
