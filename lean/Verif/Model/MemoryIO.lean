import Verif.Model.FileIO
/-
Model of bloscpack/memory_io.py.
-/
namespace Bloscpack
variable {μ : Type}

/-- `PlainMemorySource`, bloscpack/memory_io.py:15-22: yields its chunks whatever the configuration -/
def plainMemorySource (chunks : List Bytes) : PlainSource := fun _ _ _ => { items := chunks }

/-- `CompressedMemorySink`, bloscpack/memory_io.py:69-83. `none` entries are the `None` placeholders. The attribute
`checksum` is the name, a non-empty string, hence always truthy: `checksums` is always kept. -/
structure MemSink (μ : Type) where
  impl : Hash := ⟨"None", 0, fun _ => []⟩
  nchunks : Int := 0
  chunks : List (Option Bytes) := []
  checksums : List (Option Bytes) := []
  metadata : Option μ := none
  metadata_args : Option MetadataArgs := none

/-- `CompressedMemorySink`, bloscpack/memory_io.py:69-100 (`finalize` is the base class's, which does nothing,
bloscpack/abstract_io.py:88-90) -/
def compressedMemorySink (E : Env μ) : CompressedSink μ (MemSink μ) where
  configure := fun _ h => do
    let impl ← Proc.ofExcept (h.checksumImpl E)
    Proc.modify (fun _ => { impl := impl, nchunks := h.nchunks, chunks := List.replicate h.nchunks.toNat none,
                            checksums := List.replicate h.nchunks.toNat none })
  writeBloscpackHeader := Proc.pure ()
  writeMetadata := fun metadata args => do
    Proc.modify (fun s => { s with metadata := metadata, metadata_args := some args })
    Proc.pure args
  initOffsets := Proc.pure ()
  put := fun i compressed => do
    let s ← Proc.get
    if i < s.chunks.length then
      Proc.modify (fun s => { s with chunks := s.chunks.set i (some compressed),
                                     checksums := s.checksums.set i (some (doChecksum s.impl compressed)) })
    else Proc.raise .indexError
  finalize := Proc.pure ()

/-- `CompressedMemorySource`, bloscpack/memory_io.py:25-45. A `None` placeholder reaching `blosc.decompress` raises
`TypeError`; the model raises it here. -/
def compressedMemorySource (s : MemSink μ) : CompressedSource Unit where
  nchunks := s.nchunks
  checksumImpl := s.impl
  next := fun i =>
    match s.chunks[i]?, s.checksums[i]? with
    | some (some c), some d => Proc.pure (c, d)
    | some none, _ => Proc.raise .typeError
    | _, _ => Proc.raise .indexError

/-- `PlainMemorySink`, bloscpack/memory_io.py:48-66: `slots` is `some n` if `nchunks` was given -/
structure PlainMemSink where
  have_chunks : Bool
  chunks : List (Option Bytes)
  i : Nat := 0

/-- `PlainMemorySink.__init__`, bloscpack/memory_io.py:50-57 -/
def PlainMemSink.new (nchunks : Option Int) : PlainMemSink :=
  match nchunks with
  | some n => { have_chunks := true, chunks := List.replicate n.toNat none }
  | none => { have_chunks := false, chunks := [] }

/-- `PlainMemorySink.put`, bloscpack/memory_io.py:59-66 -/
def plainMemorySinkPut (E : Env μ) (compressed : Bytes) : Proc PlainMemSink Unit := do
  let d ← Proc.ofExcept (E.decompress compressed)
  let s ← Proc.get
  if s.have_chunks then
    if s.i < s.chunks.length then
      Proc.modify (fun s => { s with chunks := s.chunks.set s.i (some d), i := s.i + 1 })
    else Proc.raise .indexError
  else
    Proc.modify (fun s => { s with chunks := s.chunks ++ [some d] })

end Bloscpack
