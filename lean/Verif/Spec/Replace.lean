import Verif.Spec.Crash
/-
What is in a file that is replaced, and what a process sees that reads it in the meantime.
-/
namespace Bloscpack.Spec

/-- `Replacing old log d`: a file that contains `old` is opened for writing, which empties it, and the writes `log` are made. `d` is what
it may contain when this is interrupted, before or after it has been opened, possibly in the middle of a write. -/
def Replacing (old : Bytes) (log : List (Nat × Bytes)) (d : Bytes) : Prop := d = old ∨ Crashed [] log d

/-- `SeenReplaced old log cut view`: a process reads the file from the beginning to the end. What is before position `cut` it has read before
the file was opened for writing, what is behind it when all the writes had been made. -/
def SeenReplaced (old : Bytes) (log : List (Nat × Bytes)) (cut : Nat) (view : Nat → Nat → Option UInt8) : Prop :=
  ∀ k i, view k i = if i < cut then old[i]? else (replay [] log)[i]?

end Bloscpack.Spec
