import Verif.Spec.Args
/-!
The pieces of the data that are compressed one by one.
-/
namespace Bloscpack.Spec

/-- `d` is one of the consecutive pieces of `data`, of the size the caller asked for (which blosc can take), the last one being what remains.
Nothing at all counts as one piece. -/
def Piece (data : Bytes) (cs : ChunkSizeArg) (d : Bytes) : Prop :=
  (data = [] ∧ d = []) ∨
  ∃ (v i : Nat), RequestedSize cs v ∧ v ≤ 2 ^ 31 - 17 ∧ i * v < data.length ∧ d = slice data (i * v) ((i + 1) * v)

/-- no piece is larger than what was asked for, or than what blosc can take -/
theorem Piece.small {data : Bytes} {cs : ChunkSizeArg} {d : Bytes} (h : Piece data cs d) :
    d.length ≤ 2 ^ 31 - 17 ∧ d.length ≤ data.length ∧ (d ≠ [] → ∃ v : Nat, RequestedSize cs v ∧ d.length ≤ v) := by
  rcases h with ⟨rfl, rfl⟩ | ⟨v, i, h1, h2, h3, rfl⟩
  · exact ⟨Nat.zero_le _, Nat.le_refl _, fun h => absurd rfl h⟩
  · have e : (i + 1) * v - i * v = v := by rw [Nat.add_mul]; omega
    have : (slice data (i * v) ((i + 1) * v)).length ≤ v := by unfold slice; rw [e, List.length_take]; omega
    refine ⟨by omega, ?_, fun _ => ⟨v, h1, this⟩⟩
    unfold slice; simp; omega

end Bloscpack.Spec
