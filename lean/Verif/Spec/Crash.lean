import Verif.Model.Prim
/-
Crashes: what is in a file when the program stops in the middle of its writes.
-/
namespace Bloscpack.Spec

/-- the contents of a file after a sequence of writes (position, bytes) -/
def replay (d : Bytes) (log : List (Nat × Bytes)) : Bytes := log.foldl (fun d w => overlay d w.1 w.2) d

/-- `Crashed d log d'`: `d'` is what a file that contained `d` may contain when the program stops during the writes
`log`: some writes have been done completely, and of the next one any number of bytes. -/
def Crashed (d : Bytes) (log : List (Nat × Bytes)) (d' : Bytes) : Prop :=
  d' = d ∨ ∃ done p bs todo t, log = done ++ (p, bs) :: todo ∧ d' = overlay (replay d done) p (bs.take t)

/-- `StoppedBetween d log d'`: the same, but only between two writes. -/
def StoppedBetween (d : Bytes) (log : List (Nat × Bytes)) (d' : Bytes) : Prop :=
  ∃ done todo, log = done ++ todo ∧ d' = replay d done

/-- `CrashedBut a d log d'`: as `Crashed`, but a write at position `a` is done completely or not at all. -/
def CrashedBut (a : Nat) (d : Bytes) (log : List (Nat × Bytes)) (d' : Bytes) : Prop :=
  StoppedBetween d log d' ∨ ∃ done p bs todo t, p ≠ a ∧ log = done ++ (p, bs) :: todo ∧ d' = overlay (replay d done) p (bs.take t)

/-- Where the offsets section of a file starts, according to the README: after the 32 byte header, and the metadata
section if bit 1 of the options byte (byte 5) is set. That section has a 32 byte header (its byte 9 is the checksum,
bytes 16 to 19 are max-meta-size), max-meta-size bytes, and a digest. -/
def offsetsStart (digestSizes : List Nat) (d : Bytes) : Nat :=
  if (d[5]?.getD 0) &&& 2 ≠ 0 then
    32 + 32 + leDecode (slice d 48 52) + digestSizes[(d[41]?.getD 0).toNat]?.getD 0
  else 32

end Bloscpack.Spec
