import Verif.Model.Prim
/-!
When unpacking bytes in memory differs from unpacking a file with the same bytes.
-/
namespace Bloscpack.Spec

/-- The sizes in the metadata header point to before the beginning of the file: the header has the metadata flag (bit 1 of byte 5),
and the compressed size (bytes 20-23 of the metadata header, at 52) is more than the length of the file and the reserved size
(bytes 16-19, at 48) together. Reading such metadata takes all the rest of the file; going back from there by the difference
of the two sizes leads to before the beginning. -/
def Overshoots (file : Bytes) : Prop :=
  64 ≤ file.length ∧ (file.getD 5 0).toNat / 2 % 2 = 1 ∧
    file.length + leDecode (slice file 48 52) < leDecode (slice file 52 56)

instance (file : Bytes) : Decidable (Overshoots file) := by unfold Overshoots; infer_instance

end Bloscpack.Spec
