import Verif.Model.Append
/-
Model of the entry points of bloscpack/file_io.py and bloscpack/append.py that take file names, on a file system.
-/
namespace Bloscpack
variable {μ : Type}

/-- A file system: contents by name, and which names can be opened for writing. Simplification: names are not
resolved (no directories, links or different spellings of a name). -/
structure FS where
  files : String → Option Bytes
  canWrite : String → Bool := fun _ => true

/-- contents of `name` become `d` -/
def FS.put (fs : FS) (name : String) (d : Bytes) : FS :=
  { fs with files := fun x => if x = name then some d else fs.files x }

/-- `path.exists(name)` -/
def FS.exists (fs : FS) (name : String) : Bool := (fs.files name).isSome

/-- `path.getsize(name)` -/
def FS.getsize (fs : FS) (name : String) : Except Err Nat :=
  match fs.files name with
  | some d => .ok d.length
  | none => .error .osError

/-- `open(name, 'rb').read()` -/
def FS.openRead (fs : FS) (name : String) : Except Err Bytes :=
  match fs.files name with
  | some d => .ok d
  | none => .error .osError

/-- `open(name, 'wb')`: creates or truncates -/
def FS.openWrite (fs : FS) (name : String) : Except Err FS :=
  if fs.canWrite name then .ok (fs.put name []) else .error .osError

/-- `open(name, 'r+b')` -/
def FS.openUpdate (fs : FS) (name : String) : Except Err Bytes :=
  match fs.files name with
  | some d => if fs.canWrite name then .ok d else .error .osError
  | none => .error .osError

/-- what a file object that was opened on `name` earlier reads from it now -/
def FS.current (fs : FS) (name : String) : Bytes := (fs.files name).getD []

/-- `pack_file_to_file`, bloscpack/file_io.py:420-465. Both files are opened before the first read, so when `in_file` and
`out_file` are the same file the reads find it truncated. Simplification: then the reads do not see what is being written
to the file meanwhile (it is in the buffer of the output file object). -/
def packFileToFile (E : Env μ) (fs : FS) (in_file out_file : String) (chunk_size : ChunkSizeArg := DEFAULT_CHUNK_SIZE)
    (metadata : Option μ := none) (a : BloscArgs := {}) (b : BloscpackArgs := {}) (m : MetadataArgs := {}) :
    Except Err MetadataArgs × FS :=
  match fs.getsize in_file with
  | .error e => (.error e, fs)
  | .ok in_file_size =>
    match calculateNchunks in_file_size chunk_size with
    | .error e => (.error e, fs)
    | .ok (nchunks, chunk_size, last_chunk) =>
      match fs.openRead in_file with
      | .error e => (.error e, fs)
      | .ok _ =>
        match fs.openWrite out_file with
        | .error e => (.error e, fs)
        | .ok fs1 =>
          match pack E (plainFPSource { data := fs1.current in_file }) (compressedFPSink E) nchunks chunk_size last_chunk metadata a b m
              { fp := { data := [] } } with
          | (.error e, s) => (.error e, fs1.put out_file s.fp.data)
          | (.ok m', s) =>
            match (fs1.put out_file s.fp.data).getsize out_file with
            | .error e => (.error e, fs1.put out_file s.fp.data)
            | .ok 0 => (.error .zeroDivisionError, fs1.put out_file s.fp.data)
            | .ok (_ + 1) => (.ok m', fs1.put out_file s.fp.data)

/-- `pack_bytes_to_file`, bloscpack/file_io.py:518-560 -/
def packBytesToFile (E : Env μ) (fs : FS) (bytes : Bytes) (out_file : String)
    (chunk_size : ChunkSizeArg := DEFAULT_CHUNK_SIZE)
    (metadata : Option μ := none) (a : BloscArgs := {}) (b : BloscpackArgs := {}) (m : MetadataArgs := {}) :
    Except Err MetadataArgs × FS :=
  match calculateNchunks bytes.length chunk_size with
  | .error e => (.error e, fs)
  | .ok (nchunks, chunk_size, last_chunk) =>
    match fs.openWrite out_file with
    | .error e => (.error e, fs)
    | .ok fs1 =>
      match pack E (plainFPSource { data := bytes }) (compressedFPSink E) nchunks chunk_size last_chunk metadata a b m
          { fp := { data := [] } } with
      | (.error e, s) => (.error e, fs1.put out_file s.fp.data)
      | (.ok m', s) =>
        match (fs1.put out_file s.fp.data).getsize out_file with
        | .error e => (.error e, fs1.put out_file s.fp.data)
        | .ok 0 => (.error .zeroDivisionError, fs1.put out_file s.fp.data)
        | .ok (_ + 1) => (.ok m', fs1.put out_file s.fp.data)

/-- `pack_bytes_to_bytes`, bloscpack/file_io.py:609-663: the ratio is computed with `sio.tell()` -/
def packBytesToBytes (E : Env μ) (bytes : Bytes) (chunk_size : ChunkSizeArg := DEFAULT_CHUNK_SIZE)
    (metadata : Option μ := none) (a : BloscArgs := {}) (b : BloscpackArgs := {}) (m : MetadataArgs := {}) :
    Except Err Bytes :=
  match calculateNchunks bytes.length chunk_size with
  | .error e => .error e
  | .ok (nchunks, chunk_size, last_chunk) =>
    match pack E (plainFPSource { data := bytes }) (compressedFPSink E) nchunks chunk_size last_chunk metadata a b m
        { fp := { data := [] } } with
    | (.error e, _) => .error e
    | (.ok _, s) => if s.fp.tell = 0 then .error .zeroDivisionError else .ok s.fp.data

/-- `unpack_file_from_file`, bloscpack/file_io.py:478-510. The output is created before the input is
parsed, so when both are the same file the input is empty by then. -/
def unpackFileFromFile (E : Env μ) (fs : FS) (in_file out_file : String) : Except Err (Option μ) × FS :=
  match fs.getsize in_file with
  | .error e => (.error e, fs)
  | .ok in_file_size =>
    match fs.openRead in_file with
    | .error e => (.error e, fs)
    | .ok _ =>
      match fs.openWrite out_file with
      | .error e => (.error e, fs)
      | .ok fs1 =>
        match unpackFrom E (fs1.current in_file) with
        | (.error e, out) => (.error e, fs1.put out_file out)
        | (.ok metadata, out) =>
          if in_file_size = 0 then (.error .zeroDivisionError, fs1.put out_file out)
          else (.ok metadata, fs1.put out_file out)

/-- `unpack_bytes_from_file`, bloscpack/file_io.py:573-601 -/
def unpackBytesFromFile (E : Env μ) (fs : FS) (compressed_file : String) : Except Err (Bytes × Option μ) :=
  match fs.openRead compressed_file with
  | .error e => .error e
  | .ok input =>
    match unpackFrom E input with
    | (.ok m, out) => .ok (out, m)
    | (.error e, _) => .error e

/-- `unpack_bytes_from_bytes`, bloscpack/file_io.py:666-693 -/
def unpackBytesFromBytes (E : Env μ) (bytes : Bytes) : Except Err (Bytes × Option μ) :=
  match unpackFP E { data := bytes, inMemory := true } with
  | (.ok m, out) => .ok (out, m)
  | (.error e, _) => .error e

end Bloscpack
