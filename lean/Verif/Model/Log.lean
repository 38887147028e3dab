import Verif.Model.Prim
/-
Model of bloscpack/log.py.
-/
namespace Bloscpack

/-- The module's global variables, bloscpack/log.py:14-15, and the lines printed to standard output so far. -/
structure Log where
  level : String := "NORMAL"
  pfx : List Char := ['b', 'l', 'o', 's', 'c', 'p', 'a', 'c', 'k', '.', 'p', 'y']
  out : List (List Char) := []

/-- `VERBOSITY_LEVELS`, bloscpack/log.py:9-12 -/
def verbosityLevels : List String := ["NORMAL", "VERBOSE", "DEBUG"]

/-- `set_prefix`, bloscpack/log.py:18-20 -/
def setPrefix (p : List Char) : Proc Log Unit := Proc.modify (fun s => { s with pfx := p })

/-- `set_level`, bloscpack/log.py:23-26: the level is checked, and that is all -/
def setLevel (level : String) : Proc Log Unit :=
  if level ∈ verbosityLevels then Proc.pure () else Proc.raise .valueError

/-- `str.split('\n')` -/
def splitNL : List Char → List (List Char)
  | [] => [[]]
  | c :: cs =>
    match splitNL cs with
    | [] => [[c]]
    | l :: ls => if c = '\n' then [] :: l :: ls else (c :: l) :: ls

/-- `[l for l in message.split('\n') if l != '']`, bloscpack/log.py:35, 51 -/
def messageLines (message : List Char) : List (List Char) := (splitNL message).filter (fun l => l ≠ [])

/-- `verbose`, bloscpack/log.py:29-36. `VERBOSITY_LEVELS.index(LEVEL)` raises `ValueError` if `LEVEL` was assigned
something else. -/
def verbose (message : List Char) (level : String := "VERBOSE") : Proc Log Unit := do
  let s ← Proc.get
  if level ∉ verbosityLevels then Proc.raise .typeError
  else if s.level ∉ verbosityLevels then Proc.raise .valueError
  else if verbosityLevels.idxOf level ≤ verbosityLevels.idxOf s.level then
    Proc.modify (fun s => { s with out := s.out ++ (messageLines message).map (fun l => s.pfx ++ [':', ' '] ++ l) })
  else Proc.pure ()

/-- `debug`, bloscpack/log.py:39-41 -/
def debug (message : List Char) : Proc Log Unit := verbose message "DEBUG"

/-- `normal`, bloscpack/log.py:44-46 -/
def normal (message : List Char) : Proc Log Unit := verbose message "NORMAL"

/-- `'%s: error: %s' % (PREFIX, line)`, bloscpack/log.py:52 -/
def errorLine (pfx l : List Char) : List Char := pfx ++ [':', ' ', 'e', 'r', 'r', 'o', 'r', ':', ' '] ++ l

/-- `error`, bloscpack/log.py:49-53 -/
def logError {α : Type} (message : List Char) (exit_code : Int := 1) : Proc Log α := do
  Proc.modify (fun s => { s with out := s.out ++ (messageLines message).map (errorLine s.pfx) })
  Proc.raise (.systemExit exit_code)

end Bloscpack
