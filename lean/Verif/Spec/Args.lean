import Verif.Model.Args
/-
Small specifications for the argument properties.
-/
namespace Bloscpack.Spec

/-- The number of bytes per chunk the caller asked for: an int, or a human readable string denoting it. -/
def RequestedSize (c : ChunkSizeArg) (v : Int) : Prop :=
  c = .int v ∨ ∃ s, c = .str s ∧ reversePretty s = .ok v

/-- The number of append chunks the caller asked for, given the number of chunks. -/
def RequestedApps (m : MaxAppArg) (nchunks v : Int) : Prop :=
  m = .int v ∨ ∃ f, m = .callable f ∧ f nchunks = some v

end Bloscpack.Spec
