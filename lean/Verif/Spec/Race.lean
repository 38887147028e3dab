import Verif.Spec.Crash
/-
Processes that write to the same file at the same time.
-/
namespace Bloscpack.Spec

/-- the writes of a process, byte by byte -/
def byteWrites (log : List (Nat × Bytes)) : List (Nat × UInt8) :=
  log.flatMap fun w => w.2.zipIdx.map fun x => (w.1 + x.2, x.1)

/-- a file, and how many bytes each process has written to it (`none`: it has not opened the file yet) -/
structure Race where
  file : Bytes
  written : Nat → Option Nat

/-- Process `p` does the next thing it has to do: it opens the file for writing, which makes the file empty; or it writes the next byte of its
`writes p`; or it is done. -/
def Race.step (writes : Nat → List (Nat × UInt8)) (s : Race) (p : Nat) : Race :=
  match s.written p with
  | none => { file := [], written := fun q => if q = p then some 0 else s.written q }
  | some k =>
    match (writes p)[k]? with
    | none => s
    | some w => { file := overlay s.file w.1 [w.2], written := fun q => if q = p then some (k + 1) else s.written q }

/-- The processes do their things in the order given by the schedule, a list of processes. `before` is in the file at first. -/
def race (writes : Nat → List (Nat × UInt8)) (before : Bytes) (schedule : List Nat) : Race :=
  schedule.foldl (Race.step writes) { file := before, written := fun _ => none }

end Bloscpack.Spec
