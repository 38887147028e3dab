import Verif.Model.Append
/-
Two processes that change one archive at the same time. bloscpack does not lock the archives it changes (bloscpack/append.py:217, bloscpack/cli.py:497-499).
-/
namespace Bloscpack
variable {μ : Type}

/-- what `append_fp` has found out when it is done with reading the archive, bloscpack/append.py:85-122 -/
structure AppendPlan where
  header : BloscpackHeader
  impl : Hash
  offsets : List Int
  offsets_pos : Int
  last : Int
  args : BloscArgs
  decompressed : Bytes

/-- the part of `append_fp` that reads the archive, bloscpack/append.py:85-122. That `appendFrom` is this followed by `appendWrite` is
`appendFrom_parts`. -/
def appendPlan (E : Env μ) (args : AppendArgs) : Proc FP AppendPlan := do
  let b ← readBeginning E
  let impl ← Proc.ofExcept (b.1.checksumImpl E)
  Proc.raiseIf (b.2.2.2 = []) .runtimeError
  let a ← Proc.ofExcept (args.fill b.1)
  let offsets_pos ← Proc.ofExcept (offsetsPos E b.2.1 b.2.2.1)
  let last ← Proc.ofExcept (lastOffset b.2.2.2)
  fpSeek last
  let r ← readCompressedChunk impl
  let decompressed ← Proc.ofExcept (E.decompress r.1)
  Proc.pure ⟨b.1, impl, b.2.2.2, offsets_pos, last, a, decompressed⟩

/-- the part of `append_fp` that writes the archive, bloscpack/append.py:123-191 -/
def appendWrite (E : Env μ) (first : Int → Bytes) (source : Int → Int → Int → Int → List Bytes) (new_size : Int) (p : AppendPlan) :
    Proc FP Int :=
  let bytes_to_read := p.header.chunk_size - p.decompressed.length
  if new_size ≤ bytes_to_read then
    squeezeIn E p.header p.impl p.last p.args p.decompressed (first new_size) new_size
  else
    growBy E p.header p.impl p.offsets p.offsets_pos p.last p.args p.decompressed (first bytes_to_read) (source bytes_to_read) new_size
      bytes_to_read

/-- `append_fp` to an archive that other processes change meanwhile: they make it `d'` after `append_fp` has read what it reads from it,
and before it writes. -/
def appendMeanwhile (E : Env μ) (new : Bytes) (args : AppendArgs) (d d' : Bytes) : Except Err Int × FP :=
  match appendPlan E args { data := d } with
  | (.error e, fp) => (.error e, { fp with data := d' })
  | (.ok p, fp) =>
    appendWrite E (fun n => (({ data := new } : FP).read n).1) (fun b cs lc k => (plainFPSource (({ data := new } : FP).read b).2 cs lc k).items)
      new.length p { fp with data := d' }

end Bloscpack
