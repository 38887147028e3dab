import Verif.Spec.Crash
import Verif.Spec.Format
/-
What a process sees that reads an archive while another one is packing it.
-/
namespace Bloscpack.Spec

/-- Where the chunks of a file start, according to the README: after the offsets section, if bit 0 of the options byte (byte 5) is set. It
has eight bytes for each of the nchunks (bytes 16 to 23) and max-app-chunks (bytes 24 to 31) chunks. -/
def chunksStart (d : Bytes) : Nat :=
  offsetsStart checksumSizes d +
    if (d[5]?.getD 0) &&& 1 ≠ 0 then 8 * (leDecode (slice d 16 24) + leDecode (slice d 24 32)) else 0

/-- `SeenPacking log view`: a process reads a file from its beginning, while the writes `log` are made to the file, which was empty. It
finds the byte `view k i` at position `i` when it calls `read` for the `k`-th time. It does not start before the header, the metadata and
the space for the offsets have been written; every byte it finds is what is in the file at some point after that, possibly in the
middle of a write, and not necessarily at the same point as the other bytes it finds in the same call. -/
def SeenPacking (log : List (Nat × Bytes)) (view : Nat → Nat → Option UInt8) : Prop :=
  ∃ done todo, log = done ++ todo ∧ chunksStart (replay [] done) ≤ (replay [] done).length ∧
    ∀ k i, ∃ d, Crashed (replay [] done) todo d ∧ view k i = d[i]?

/-- `SeenAnyTime log view`: the same for a process that may start at any time, even when the file is still empty. -/
def SeenAnyTime (log : List (Nat × Bytes)) (view : Nat → Nat → Option UInt8) : Prop :=
  ∀ k i, ∃ d, Crashed [] log d ∧ view k i = d[i]?

/-- `OnlyWhole stored load`: nothing that is shorter than `stored`, and is its beginning, can be loaded. -/
def OnlyWhole {α ε : Type} (stored : Bytes) (load : Bytes → Except ε α) : Prop :=
  ∀ part x, part <+: stored → load part = .ok x → part = stored

/-- `DigestsNoted isChunk readable log view`: for every chunk that is written, and what is written immediately after it, its digest: once the
end of the chunk has been read, the first byte of the digest is there in later calls of `read`; or else nothing that agrees with the
digest, as far as both go, can be decompressed. -/
def DigestsNoted (isChunk readable : Bytes → Prop) (log : List (Nat × Bytes)) (view : Nat → Nat → Option UInt8) : Prop :=
  ∀ pre p c D post, isChunk c → log = pre ++ (p, c) :: (p + c.length, D) :: post →
    (∀ k k', k' < k → (view k' (p + c.length - 1)).isSome → (view k (p + c.length)).isSome) ∨
      ∀ y, (y <+: D ∨ D <+: y) → ¬ readable y

end Bloscpack.Spec
