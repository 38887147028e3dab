import Verif.Spec.Crash
/-
What a process sees of a file that another process is writing to.
-/
namespace Bloscpack.Spec

/-- `Seen d log view`: a file with contents `d` is read while another process makes the writes `log`, and `view k i` is the byte that the
`k`-th call of `read` finds at position `i` (`none`: the file ends before it).

- The first 32 bytes, the header, were fetched at one moment between two writes: `done` had been made, `todo` not.
- Every other byte was fetched at some moment from then on, possibly in the middle of a write; different bytes at different moments, in any
  order. -/
def Seen (d : Bytes) (log : List (Nat × Bytes)) (view : Nat → Nat → Option UInt8) : Prop :=
  ∃ done todo, log = done ++ todo ∧ (∀ i, i < 32 → view 0 i = (replay d done)[i]?) ∧
    ∀ k i, ∃ d', Crashed (replay d done) todo d' ∧ view k i = d'[i]?

/-- The same, but it is the 32 bytes from position `p` on that the `n`-th call of `read` fetched at one moment between two writes. Every other
byte was fetched at some moment, possibly in the middle of a write. -/
def SeenFrom (n p : Nat) (d : Bytes) (log : List (Nat × Bytes)) (view : Nat → Nat → Option UInt8) : Prop :=
  (∃ done todo, log = done ++ todo ∧ ∀ i, p ≤ i → i < p + 32 → view n i = (replay d done)[i]?) ∧
    ∀ k i, ∃ d', Crashed d log d' ∧ view k i = d'[i]?

end Bloscpack.Spec
