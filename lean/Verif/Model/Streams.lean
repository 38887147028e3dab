import Verif.Model.EntryPoints
/-
Several archives one behind the other in one file object: `pack` and `unpack` called with sinks and sources that are
made on a file object the program opened itself, and that may already hold something.
-/
namespace Bloscpack
variable {μ : Type}

/-- what one call of `pack` is asked to store -/
structure PackJob (μ : Type) where
  data : Bytes
  chunk_size : ChunkSizeArg := DEFAULT_CHUNK_SIZE
  metadata : Option μ := none
  a : BloscArgs := {}
  b : BloscpackArgs := {}
  m : MetadataArgs := {}

/-- `nchunks, chunk_size, last_chunk = calculate_nchunks(len(data), chunk_size)`, then
`pack(source, CompressedFPSink(fp), nchunks, chunk_size, last_chunk, ...)`: bloscpack/abstract_io.py:108-166 with
bloscpack/file_io.py:384-417, as `pack_bytes_to_bytes` does it (file_io.py:645-657) but on a file object that is wherever the
program left it. A new sink is made for each call, so `meta_total` starts at 0 (file_io.py:386-388). -/
def packNext (E : Env μ) (j : PackJob μ) : Proc FP Unit := fun fp =>
  match calculateNchunks j.data.length j.chunk_size with
  | .error e => (.error e, fp)
  | .ok (nchunks, chunk_size, last_chunk) =>
    let r := pack E (plainFPSource { data := j.data }) (compressedFPSink E) nchunks chunk_size last_chunk j.metadata j.a j.b j.m
      { fp := fp }
    (r.1.map (fun _ => ()), r.2.fp)

/-- `source = CompressedFPSource(fp)`, then `unpack(source, PlainFPSink(out))` with an empty `out`: bloscpack/abstract_io.py:169-196
with bloscpack/file_io.py:356-381. Gives `source.metadata`, what was written to `out`, and where `fp` is afterwards. -/
def unpackNext (E : Env μ) : Proc FP (Option μ × Bytes) := fun fp =>
  match readBeginning E fp with
  | (.error e, fp) => (.error e, fp)
  | (.ok (h, metadata, _, _), fp) =>
    match h.checksumImpl E with
    | .error e => (.error e, fp)
    | .ok impl =>
      let r := unpack (compressedFPSource h impl) (plainFPSinkPut E) (fp, { data := [] })
      (r.1.map (fun _ => (metadata, r.2.2.data)), r.2.1)

/-- a program that packs one after the other into the same file object -/
def packAll (E : Env μ) : List (PackJob μ) → Proc FP Unit
  | [] => Proc.pure ()
  | j :: js => do
    packNext E j
    packAll E js

/-- a program that unpacks `k` times from the same file object -/
def unpackAll (E : Env μ) : Nat → Proc FP (List (Option μ × Bytes))
  | 0 => Proc.pure []
  | k + 1 => do
    let x ← unpackNext E
    let xs ← unpackAll E k
    Proc.pure (x :: xs)

/-! ### a sink that was used before -/

/-- `fp.seek(0); fp.truncate()` and then `pack(source, sink, ...)` with a sink on `fp` that was made before and may have been used:
bloscpack/abstract_io.py:108-166 with bloscpack/file_io.py:384-417. `meta_total` is set when the sink is made (file_io.py:388) and
added to by `write_metadata` (391-394). -/
def packAgain (E : Env μ) (j : PackJob μ) : Proc FPSink Unit := fun s =>
  match calculateNchunks j.data.length j.chunk_size with
  | .error e => (.error e, s)
  | .ok (nchunks, chunk_size, last_chunk) =>
    let r := pack E (plainFPSource { data := j.data }) (compressedFPSink E) nchunks chunk_size last_chunk j.metadata j.a j.b j.m
      { s with fp := { data := [] } }
    (r.1.map (fun _ => ()), r.2)

/-- a program that does this again and again with one sink, whether packing returns or raises an exception -/
def packAgainAll (E : Env μ) : List (PackJob μ) → FPSink → FPSink
  | [], s => s
  | j :: js, s => packAgainAll E js (packAgain E j s).2

/-! ### a source that was used before -/

/-- a `CompressedFPSource`, bloscpack/file_io.py:356-369, without its file object -/
structure FPSource (μ : Type) where
  header : BloscpackHeader
  metadata : Option μ
  impl : Hash

/-- `CompressedFPSource(fp)`, bloscpack/file_io.py:358-364: reads everything up to the first chunk -/
def openSource (E : Env μ) : Proc FP (FPSource μ) := do
  let r ← readBeginning E
  let impl ← Proc.ofExcept (r.1.checksumImpl E)
  Proc.pure ⟨r.1, r.2.1, impl⟩

/-- `unpack(source, PlainFPSink(out))` with an empty `out`, bloscpack/abstract_io.py:169-196 with bloscpack/file_io.py:366-381. The
source reads from its file object where that is. Gives the outcome, the file object, and what was written to `out`. -/
def FPSource.unpackTo (E : Env μ) (src : FPSource μ) (fp : FP) : Except Err Unit × FP × Bytes :=
  let r := unpack (compressedFPSource src.header src.impl) (plainFPSinkPut E) (fp, { data := [] })
  (r.1, r.2.1, r.2.2.data)

/-- `pack(PlainFPSource(fp), CompressedFPSink(out), ...)` with an empty `out`, for the size, chunk size and other arguments of `j`:
bloscpack/abstract_io.py:108-166 with bloscpack/file_io.py:343-353. A `PlainFPSource` holds nothing but its file object, and reads
from where that is; so using a source again is the same as making another one. Gives the outcome, what `out` holds, and the file
object as it is left if `pack` returns. -/
def packFrom (E : Env μ) (j : PackJob μ) (fp : FP) : Except Err Unit × Bytes × FP :=
  match calculateNchunks j.data.length j.chunk_size with
  | .error e => (.error e, [], fp)
  | .ok (nchunks, chunk_size, last_chunk) =>
    let r := pack E (plainFPSource fp) (compressedFPSink E) nchunks chunk_size last_chunk j.metadata j.a j.b j.m { fp := { data := [] } }
    (r.1.map (fun _ => ()), r.2.fp.data, (readMany (List.replicate (nchunks - 1).toNat chunk_size ++ [last_chunk]) fp).2)

/-- `unpack(source, sink)` for several sources, each on a file object of its own, one after the other with the same sink, whether
unpacking returns or raises an exception: bloscpack/abstract_io.py:169-196. The sink is given by what its `put` does. -/
def unpackSeq (put : Bytes → Proc τ Unit) : List (FPSource μ × FP) → τ → τ
  | [], t => t
  | (src, fp) :: us, t => unpackSeq put us (unpack (compressedFPSource src.header src.impl) put (fp, t)).2.2

end Bloscpack
