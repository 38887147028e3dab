/-
Primitive notions used by every part of the model: byte strings, exceptions, `struct` packing and file objects.
-/
namespace Bloscpack

deriving instance DecidableEq for Except

/-- Python `bytes`. -/
abbrev Bytes := List UInt8

/-- The exceptions the modelled code can raise: bloscpack/exceptions.py:6-67 plus the builtin and library
exceptions that escape from it. Only the class is kept; messages are dropped (simplification). -/
inductive Err where
  -- bloscpack/exceptions.py, in order
  | fileNotFound | noSuchChecksum | noSuchCodec | noSuchSerializer | chunkingException
  | chunkSizeTypeSizeMismatch | checksumMismatch | formatVersionMismatch | checksumLengthMismatch
  | noMetadataFound | noChangeInMetadata | metadataSectionTooSmall | nonUniformTypesize
  | notEnoughSpace | notANumpyArray | objectNumpyArrayRejection
  -- builtins
  | valueError | typeError | indexError | keyError | runtimeError | zeroDivisionError
  | attributeError | unboundLocalError | overflowError | osError | notImplementedError
  /-- `sys.exit(code)`, see bloscpack/log.py:48-52 -/
  | systemExit (code : Int)
  -- libraries
  | structError | bloscError | zlibError | jsonDecodeError
  deriving DecidableEq, Repr

/-- Does `except ValueError` catch it? bloscpack/exceptions.py:10-27 (subclasses of `ValueError`), and
`json.JSONDecodeError` is one too. -/
def Err.isValueError : Err → Bool
  | .valueError | .noSuchChecksum | .noSuchCodec | .noSuchSerializer
  | .chunkSizeTypeSizeMismatch | .jsonDecodeError => true
  | _ => false

/-! ### `struct` -/

/-- little-endian bytes of `v`, `w` of them (`struct.pack('<…')` of an unsigned number) -/
def leEncode : Nat → Nat → Bytes
  | 0, _ => []
  | w + 1, v => UInt8.ofNat (v % 256) :: leEncode w (v / 256)

/-- the number written by little-endian bytes -/
def leDecode : Bytes → Nat
  | [] => 0
  | b :: bs => b.toNat + 256 * leDecode bs

/-- `struct.pack` of an unsigned `w`-byte integer: out of range values raise `struct.error` -/
def packUnsigned (w : Nat) (v : Int) : Except Err Bytes :=
  if 0 ≤ v ∧ v < 256 ^ w then .ok (leEncode w v.toNat) else .error .structError

/-- `struct.pack` of a signed `w`-byte integer (two's complement) -/
def packSigned (w : Nat) (v : Int) : Except Err Bytes :=
  if -(256 ^ w / 2) ≤ v ∧ v < 256 ^ w / 2 then .ok (leEncode w (v % 256 ^ w).toNat)
  else .error .structError

/-- `struct.unpack` of an unsigned `w`-byte integer: the buffer must have exactly `w` bytes -/
def unpackUnsigned (w : Nat) (b : Bytes) : Except Err Int :=
  if b.length = w then .ok (leDecode b) else .error .structError

/-- `struct.unpack` of a signed `w`-byte integer -/
def unpackSigned (w : Nat) (b : Bytes) : Except Err Int :=
  if b.length = w then
    let n : Int := leDecode b
    .ok (if n < 256 ^ w / 2 then n else n - 256 ^ w)
  else .error .structError

/-! ### Python sequences -/

/-- Python slice `l[i:j]` for `0 ≤ i ≤ j` -/
def slice {α} (l : List α) (i j : Nat) : List α := (l.drop i).take (j - i)

/-- Python `l * n` for a list/bytes and an int (`n ≤ 0` gives the empty list) -/
def repeatList {α} (l : List α) (n : Int) : List α := (List.replicate n.toNat l).flatten

/-! ### File objects -/

/-- A binary file object (or `BytesIO`): contents, position. `log` is a ghost variable: the write calls made so
far, as (position, bytes), oldest first. It never influences behaviour and is used to define crash states.
`inMemory` tells a `BytesIO` from a file on disk. Simplification: buffering is not modelled, writes reach `data` in program
order; there is always enough memory for what is read. -/
structure FP where
  data : Bytes
  pos : Nat := 0
  log : List (Nat × Bytes) := []
  inMemory : Bool := false

/-- `fp.read(n)`: at most `n` bytes, all the rest if `n < 0`; short at the end of the file. -/
def FP.read (fp : FP) (n : Int) : Bytes × FP :=
  let rest := fp.data.drop fp.pos
  let got := if n < 0 then rest else rest.take n.toNat
  (got, { fp with pos := fp.pos + got.length })

/-- Contents after writing `bs` at position `p`: overwrites, extends, zero-fills a gap. -/
def overlay (d : Bytes) (p : Nat) (bs : Bytes) : Bytes :=
  if bs = [] then d
  else d.take p ++ List.replicate (p - d.length) 0 ++ bs ++ d.drop (p + bs.length)

/-- `fp.write(bs)` -/
def FP.write (fp : FP) (bs : Bytes) : FP :=
  { fp with data := overlay fp.data fp.pos bs, pos := fp.pos + bs.length, log := fp.log ++ [(fp.pos, bs)] }

/-- `fp.seek(n, 0)`; negative positions raise: `ValueError` for a `BytesIO`, `OSError` (`EINVAL`) for a file -/
def FP.seek (fp : FP) (n : Int) : Except Err FP :=
  if n < 0 then .error (if fp.inMemory then .valueError else .osError) else .ok { fp with pos := n.toNat }

/-- `fp.seek(n, 1)`; for a position before the beginning a file raises, whereas a `BytesIO` goes to the beginning -/
def FP.seekRel (fp : FP) (n : Int) : Except Err FP :=
  if (fp.pos : Int) + n < 0 ∧ fp.inMemory = false then .error .osError else .ok { fp with pos := ((fp.pos : Int) + n).toNat }

/-- `fp.tell()` -/
def FP.tell (fp : FP) : Nat := fp.pos

/-! ### Computations that change a state and may raise -/

/-- A Python procedure working on state `σ`: result or exception, and the state it leaves behind in both cases. -/
@[reducible] def Proc (σ α : Type) := σ → Except Err α × σ

namespace Proc
variable {σ α β : Type}
def pure (a : α) : Proc σ α := fun s => (.ok a, s)
def bind (m : Proc σ α) (f : α → Proc σ β) : Proc σ β := fun s =>
  match m s with
  | (.ok a, s') => f a s'
  | (.error e, s') => (.error e, s')
def raise (e : Err) : Proc σ α := fun s => (.error e, s)
/-- lift a pure computation that may raise -/
def ofExcept (x : Except Err α) : Proc σ α := fun s => (x, s)
def get : Proc σ σ := fun s => (.ok s, s)
def modify (f : σ → σ) : Proc σ Unit := fun s => (.ok (), f s)
instance : Monad (Proc σ) where
  pure := Proc.pure
  bind := Proc.bind
/-- `if bad: raise e` -/
def raiseIf (bad : Prop) [Decidable bad] (e : Err) : Proc σ Unit := if bad then raise e else pure ()
/-- run on the first component of a pair of objects -/
def onFst {τ : Type} (m : Proc σ α) : Proc (σ × τ) α := fun s => ((m s.1).1, ((m s.1).2, s.2))
/-- run on the second component of a pair of objects -/
def onSnd {τ : Type} (m : Proc σ α) : Proc (τ × σ) α := fun s => ((m s.2).1, (s.1, (m s.2).2))
end Proc

/-- File objects that can be read. The reading functions of bloscpack are modelled for all of them: there are files nobody else writes to
(`FP`, below) and files another process writes to meanwhile (`Shared`, Model/Shared.lean). -/
class Readable (σ : Type) where
  /-- `fp.read(n)` -/
  read : Int → Proc σ Bytes
  /-- `fp.seek(n, 1)` -/
  seekRel : Int → Proc σ Unit

/-- `fp.read(n)` as a procedure -/
def fpRead {σ : Type} [Readable σ] (n : Int) : Proc σ Bytes := Readable.read n
/-- `fp.seek(n, 1)` as a procedure -/
def fpSeekRel {σ : Type} [Readable σ] (n : Int) : Proc σ Unit := Readable.seekRel n

@[default_instance] instance instReadableFP : Readable FP where
  read := fun n fp => (.ok (fp.read n).1, (fp.read n).2)
  seekRel := fun n fp =>
    match fp.seekRel n with
    | .ok fp' => (.ok (), fp')
    | .error e => (.error e, fp)

theorem fpRead_eq (n : Int) (fp : FP) : fpRead n fp = (.ok (fp.read n).1, (fp.read n).2) := rfl
theorem fpSeekRel_eq (n : Int) (fp : FP) : fpSeekRel n fp =
    match fp.seekRel n with
    | .ok fp' => (.ok (), fp')
    | .error e => (.error e, fp) := rfl

/-- File objects that can be written, too. The writing functions of bloscpack are modelled for all of them: there are files on a disk that
always takes what is written (`FP`) and on one that fails (`Failing`, Model/Failing.lean). -/
class Writable (σ : Type) extends Readable σ where
  /-- `fp.write(bs)` -/
  write : Bytes → Proc σ Unit
  /-- `fp.seek(n, 0)` -/
  seek : Int → Proc σ Unit
  /-- `fp.tell()` -/
  tell : σ → Nat

/-- `fp.write(bs)` as a procedure -/
def fpWrite {σ : Type} [Writable σ] (bs : Bytes) : Proc σ Unit := Writable.write bs
/-- `fp.seek(n, 0)` as a procedure -/
def fpSeek {σ : Type} [Writable σ] (n : Int) : Proc σ Unit := Writable.seek n
/-- `fp.tell()` as a procedure -/
def fpTell {σ : Type} [Writable σ] : Proc σ Nat := fun s => (.ok (Writable.tell s), s)

@[default_instance] instance instWritableFP : Writable FP where
  toReadable := instReadableFP
  write := fun bs fp => (.ok (), fp.write bs)
  seek := fun n fp =>
    match fp.seek n with
    | .ok fp' => (.ok (), fp')
    | .error e => (.error e, fp)
  tell := FP.tell

theorem fpWrite_eq (bs : Bytes) (fp : FP) : fpWrite bs fp = (.ok (), fp.write bs) := rfl
theorem fpSeek_eq (n : Int) (fp : FP) : fpSeek n fp =
    match fp.seek n with
    | .ok fp' => (.ok (), fp')
    | .error e => (.error e, fp) := rfl
theorem fpTell_eq (fp : FP) : fpTell fp = (.ok fp.pos, fp) := rfl

end Bloscpack
