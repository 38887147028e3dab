import Verif.Model.FileIO
/-
Files that another process writes to while they are read. bloscpack opens archives without locking them
(bloscpack/file_io.py:503, 598, bloscpack/append.py:217, bloscpack/cli.py:497), so nothing keeps a reader from opening an archive that is being appended to.
-/
namespace Bloscpack

/-- A file object on a file that other processes write to. `view k i` is the byte that the `k`-th call of `read` on this object finds at
position `i`, or `none` if the file then ends before it. Different bytes of one call may have been fetched at different moments: Python's
file objects fetch data in blocks, before and when they are asked for. `bound` is the most `read` with a negative argument returns. -/
structure Shared where
  view : Nat → Nat → Option UInt8
  bound : Nat := 0
  calls : Nat := 0
  pos : Nat := 0

/-- the bytes from position `p` on, `n` of them unless the file ends before -/
def bytesFrom (v : Nat → Option UInt8) (p : Nat) : Nat → Bytes
  | 0 => []
  | n + 1 =>
    match v p with
    | none => []
    | some b => b :: bytesFrom v (p + 1) n

/-- `fp.read(n)` -/
def Shared.read (n : Int) : Proc Shared Bytes := fun s =>
  let got := bytesFrom (s.view s.calls) s.pos (if n < 0 then s.bound else n.toNat)
  (.ok got, { s with calls := s.calls + 1, pos := s.pos + got.length })

/-- `fp.seek(n, 1)` -/
def Shared.seekRel (n : Int) : Proc Shared Unit := fun s =>
  if (s.pos : Int) + n < 0 then (.error .osError, s) else (.ok (), { s with pos := ((s.pos : Int) + n).toNat })

instance instReadableShared : Readable Shared where
  read := Shared.read
  seekRel := Shared.seekRel

/-- unpacking a file that another process writes to, `unpack_file_from_file` bloscpack/file_io.py:478-510, `unpack_bytes_from_file` 573-601 -/
def unpackShared {μ : Type} (E : Env μ) (s : Shared) : Except Err (Option μ) × Bytes := unpackFP E s

end Bloscpack
