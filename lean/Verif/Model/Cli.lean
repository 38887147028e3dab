import Verif.Model.EntryPoints
import Verif.Model.Log
import Verif.Model.Objects
/-
Model of bloscpack/cli.py: the command line tool `blpk`, after argparse has parsed the command line. Not modelled:
argparse itself (options, help, usage errors), the texts of `log.verbose` and `log.debug` messages, the number of threads.
-/
namespace Bloscpack
variable {μ : Type}

/-- What the tool works on: the files, and the log with the lines printed. -/
structure World where
  fs : FS
  log : Log := {}

/-- the parsed arguments, bloscpack/cli.py:206-427 (argparse.Namespace); each subcommand uses some of them -/
structure CliArgs where
  verbose : Bool := false
  debug : Bool := false
  subcommand : Option String := none
  in_file : String := ""
  out_file : Option String := none
  original_file : String := ""
  new_file : String := ""
  file_ : String := ""
  force : Bool := false
  no_check_extension : Bool := false
  metadata : Option String := none
  blosc : BloscArgs := {}
  chunk_size : ChunkSizeArg := DEFAULT_CHUNK_SIZE
  checksum : String := "adler32"
  offsets : Bool := true

/-- What the command line tool gets from elsewhere: the truthiness of metadata objects, `pprint.pformat(m, width=90)`, whether
`str` of an `OrderedDict` is written with braces (since Python 3.12) or as a list of pairs (before), and the messages given to
`log.verbose` and `log.debug` (`true`) before anything else is printed, any texts that depend on the arguments and files: `main` gives
all of them but the last to the log before the first `log.normal` or `log.error`. Simplification: these messages themselves. -/
structure Shown (μ : Type) where
  truthy : μ → Bool
  pformat : Option μ → List Char
  braces : Bool := true
  chat : CliArgs → FS → List (Bool × List Char) := fun _ _ => []

/-- `EXTENSION`, bloscpack/constants.py:16 -/
def EXTENSION : List Char := ['.', 'b', 'l', 'p']

/-- run a logging procedure -/
def onLog {α : Type} (m : Proc Log α) : Proc World α := fun w => ((m w.log).1, { w with log := (m w.log).2 })
/-- run a function that changes the file system -/
def onFS {α : Type} (m : FS → Except Err α × FS) : Proc World α := fun w => ((m w.fs).1, { w with fs := (m w.fs).2 })

/-- stands for the messages whose text is not modelled -/
def someMessage : List Char := ['.', '.', '.']

/-- `check_files`, bloscpack/cli.py:58-84: the message of the `FileNotFound` it raises, if it does -/
def checkFiles (fs : FS) (in_file out_file : String) (force : Bool) : Option (List Char) :=
  if ¬ fs.exists in_file then
    some ("input file '".toList ++ in_file.toList ++ "' does not exist!".toList)
  else if fs.exists out_file ∧ ¬ force then
    some ("output file '".toList ++ out_file.toList ++ "' exists!".toList)
  else none

/-- `try: check_files(...) except FileNotFound as fnf: log.error(str(fnf))`, bloscpack/cli.py:448-451, 467-470 -/
def checkFilesOrExit (in_file out_file : String) (force : Bool) : Proc World Unit := fun w =>
  match checkFiles w.fs in_file out_file force with
  | some message => onLog (logError message) w
  | none => (.ok (), w)

/-- Python `x or y` for strings that may be `None`: the empty string is falsy too -/
def orElseName (x : Option String) (y : String) : String :=
  match x with
  | some s => if s = "" then y else s
  | none => y

/-- `process_compression_args`, bloscpack/cli.py:95-114: the output name -/
def compressionOut (args : CliArgs) : String :=
  orElseName args.out_file (String.ofList (args.in_file.toList ++ EXTENSION))

/-- `str.endswith` -/
def endsWith (s suffix : List Char) : Bool := s.drop (s.length - suffix.length) == suffix

/-- `process_decompression_args`, bloscpack/cli.py:117-146: the output name, after `log.error` in two cases. With
`--no-check-extension` the given name is used as it is (it may be empty). -/
def decompressionOut (args : CliArgs) : Proc Log String :=
  if args.no_check_extension then
    match args.out_file with
    | none => logError "--no-check-extension requires use of <out_file>".toList
    | some s => Proc.pure s
  else if endsWith args.in_file.toList EXTENSION then
    Proc.pure (orElseName args.out_file (String.ofList (args.in_file.toList.take (args.in_file.toList.length - EXTENSION.length))))
  else
    logError ("input file '".toList ++ args.in_file.toList ++ "' does not end with '".toList ++ EXTENSION ++ "'".toList)

/-- `str.strip()`. Simplification: on the bytes of the file, removing ASCII whitespace only. -/
def stripBytes (b : Bytes) : Bytes :=
  let isSpace : UInt8 → Bool := fun c => c = 32 || (9 ≤ c && c ≤ 13)
  ((b.dropWhile isSpace).reverse.dropWhile isSpace).reverse

/-- `process_metadata_args`, bloscpack/cli.py:159-165. The handler for unreadable files evaluates `ioe.message`, which
does not exist in Python 3: `AttributeError`. Invalid JSON raises. -/
def processMetadataArgs (E : Env μ) (args : CliArgs) : Proc World (Option μ) := fun w =>
  match args.metadata with
  | none => (.ok none, w)
  | some name =>
    match w.fs.openRead name with
    | .error _ => (.error .attributeError, w)
    | .ok content => (E.loads (stripBytes content), w)

/-- the handler around `pack_file_to_file`, bloscpack/cli.py:455-463 -/
def compressHandler (r : Except Err MetadataArgs) : Proc World Unit :=
  match r with
  | .ok _ => Proc.pure ()
  | .error .chunkingException => onLog (logError someMessage)
  | .error e => Proc.raise e

/-- run `m`, whatever its outcome hand it to `k` -/
def attempt {α β : Type} (m : Proc World α) (k : Except Err α → Proc World β) : Proc World β := fun w => k (m w).1 (m w).2

/-- the `compress` subcommand, bloscpack/cli.py:445-463 -/
def cliCompress (E : Env μ) (args : CliArgs) : Proc World Unit := do
  checkFilesOrExit args.in_file (compressionOut args) args.force
  let metadata ← processMetadataArgs E args
  attempt (onFS (fun fs => packFileToFile E fs args.in_file (compressionOut args) args.chunk_size metadata args.blosc
      { offsets := args.offsets, checksum := args.checksum } {}))
    compressHandler

/-- `log_metadata`, bloscpack/cli.py:176-178 -/
def logMetadata (S : Shown μ) (metadata : Option μ) : Proc Log Unit := do
  normal "Metadata:".toList
  normal (S.pformat metadata)

/-- `if metadata: log_metadata(metadata)` and the handlers around `unpack_file_from_file`, bloscpack/cli.py:471-478: they
evaluate `.message`, which exceptions do not have in Python 3 -/
def decompressHandler (S : Shown μ) (r : Except Err (Option μ)) : Proc World Unit :=
  match r with
  | .ok none => Proc.pure ()
  | .ok (some m) => if S.truthy m then onLog (logMetadata S (some m)) else Proc.pure ()
  | .error .formatVersionMismatch => Proc.raise .attributeError
  | .error .checksumMismatch => Proc.raise .attributeError
  | .error e => Proc.raise e

/-- the `decompress` subcommand, bloscpack/cli.py:464-478 -/
def cliDecompress (E : Env μ) (S : Shown μ) (args : CliArgs) : Proc World Unit := do
  let out_file ← onLog (decompressionOut args)
  checkFilesOrExit args.in_file out_file args.force
  attempt (onFS (fun fs => unpackFileFromFile E fs args.in_file out_file)) (decompressHandler S)

/-- `process_append_args`, bloscpack/cli.py:149-156 -/
def processAppendArgs (args : CliArgs) : Proc Log Unit :=
  if args.no_check_extension = false ∧ endsWith args.original_file.toList EXTENSION = false then
    logError ("original file '".toList ++ args.original_file.toList ++ "' does not end with '".toList ++ EXTENSION ++ "'".toList)
  else Proc.pure ()

/-- the existence checks of the `append` and `info` subcommands, bloscpack/cli.py:482-490, 501-506 -/
def requireFile (what name : String) : Proc World Unit := fun w =>
  if w.fs.exists name then (.ok (), w)
  else onLog (logError (what.toList ++ " '".toList ++ name.toList ++ "' does not exist!".toList)) w

/-- `append` by file names, bloscpack/append.py:194-223. Simplification: the new file is read from the state before the
append, so this is the code's behaviour only for `original_file ≠ new_file`; see `appendFrom` and C77 for the other case. -/
def appendNamed (E : Env μ) (original_file new_file : String) (args : AppendArgs) (fs : FS) : Except Err Unit × FS :=
  match fs.getsize original_file, fs.getsize new_file, fs.openUpdate original_file, fs.openRead new_file with
  | .ok _, .ok _, .ok orig, .ok new =>
    let r := appendFile E orig new args
    (r.1, fs.put original_file r.2.data)
  | _, _, _, _ => (.error .osError, fs)

/-- the metadata rewrite of the `append` subcommand, bloscpack/cli.py:496-499 -/
def rewriteNamed (E : Env μ) (original_file : String) (metadata : Option μ) (fs : FS) : Except Err Unit × FS :=
  match metadata with
  | none => (.ok (), fs)
  | some m =>
    match fs.openUpdate original_file with
    | .error e => (.error e, fs)
    | .ok orig =>
      let r := rewriteMetadata E (some m) {} { data := orig }
      (r.1, fs.put original_file r.2.data)

/-- `BloscArgs` as the dict given to `append`, bloscpack/cli.py:87-92 -/
def AppendArgs.ofBlosc (a : BloscArgs) : AppendArgs :=
  { typesize := some a.typesize, clevel := some a.clevel, shuffle := some a.shuffle, cname := some a.cname }

/-- the `append` subcommand, bloscpack/cli.py:479-499 -/
def cliAppend (E : Env μ) (args : CliArgs) : Proc World Unit := do
  onLog (processAppendArgs args)
  requireFile "original file" args.original_file
  requireFile "new file" args.new_file
  let metadata ← processMetadataArgs E args
  onFS (appendNamed E args.original_file args.new_file (.ofBlosc args.blosc))
  onFS (rewriteNamed E args.original_file metadata)

/-- what the `info` subcommand reads: header, metadata, metadata header, offsets, header of the first chunk -/
structure InfoRead (μ : Type) where
  header : BloscpackHeader
  metadata : Option μ
  metadata_header : Option MetadataHeader
  offsets : List Int
  blosc_header : BloscHeader

/-- reading for the `info` subcommand, bloscpack/cli.py:508-514 -/
def infoRead (E : Env μ) : Proc FP (InfoRead μ) := do
  let b ← readBeginning E
  let impl ← Proc.ofExcept (b.1.checksumImpl E)
  let r ← readCompressedChunk impl
  Proc.pure { header := b.1, metadata := b.2.1, metadata_header := b.2.2.1, offsets := b.2.2.2, blosc_header := r.2.1 }

/-- `"[%s,...]" % (",".join(str(o) for o in offsets[:5]))`, bloscpack/cli.py:521 -/
def offsetsText (offsets : List Int) : List Char :=
  '[' :: (joinText [','] ((offsets.take 5).map (fun o => (toString o).toList)) ++ ",...]".toList)

/-- `str` of an `OrderedDict`; `braces`: see `Shown` -/
def orderedDictText (braces : Bool) (items : List (String × ObjVal)) : List Char :=
  if braces then
    "OrderedDict({".toList ++ joinText ", ".toList (items.map (fun x => (ObjVal.str x.1.toList).repr ++ ": ".toList ++ x.2.repr)) ++ "})".toList
  else
    "OrderedDict([".toList ++
      joinText ", ".toList (items.map (fun x => '(' :: ((ObjVal.str x.1.toList).repr ++ ", ".toList ++ x.2.repr ++ [')']))) ++ "])".toList

/-- the entries of the dict returned by `decode_blosc_header`, bloscpack/headers.py:215-221 -/
def BloscHeader.items (h : BloscHeader) : List (String × ObjVal) :=
  [("version", .int h.version), ("versionlz", .int h.versionlz), ("flags", .int h.flags), ("typesize", .int h.typesize),
    ("nbytes", .int h.nbytes), ("blocksize", .int h.blocksize), ("ctbytes", .int h.ctbytes)]

/-- the entries of the dict returned by `decode_blosc_flags`, bloscpack/headers.py:225-230 -/
def BloscFlags.items (f : BloscFlags) : List (String × ObjVal) :=
  [("byte_shuffle", .bool f.byteShuffle), ("pure_memcpy", .bool f.pureMemcpy), ("bit_shuffle", .bool f.bitShuffle),
    ("split_blocks", .bool f.splitBlocks), ("codec", .str f.codec.toList)]

/-- the output of the `info` subcommand, bloscpack/cli.py:518-528 -/
def infoPrint (S : Shown μ) (r : InfoRead μ) : Proc Log Unit := do
  normal r.header.obj.pformat
  (if r.offsets ≠ [] then do
    normal "'offsets':".toList
    normal (offsetsText r.offsets)
  else Proc.pure () : Proc Log Unit)
  (match r.metadata with
    | none => Proc.pure ()
    | some m => do
      logMetadata S (some m)
      match r.metadata_header with
      | none => Proc.raise .attributeError
      | some h => normal h.obj.pformat : Proc Log Unit)
  normal "First chunk blosc header:".toList
  normal (orderedDictText S.braces r.blosc_header.items)
  normal "First chunk blosc flags: ".toList
  let flags ← Proc.ofExcept (decodeBloscFlags r.blosc_header.flags.toNat)
  normal (orderedDictText S.braces flags.items)

/-- what follows the reading, bloscpack/cli.py:507-528: `except ValueError`. Simplification: of the message only
the constant part is modelled. -/
def infoHandler (S : Shown μ) (r : Except Err (InfoRead μ)) : Proc World Unit :=
  match r with
  | .ok r => onLog (infoPrint S r)
  | .error e => if e.isValueError then onLog (logError "This might not be a bloscpack compressed file.".toList) else Proc.raise e

/-- `with open(args.file_, 'rb') as fp:` and the reading, bloscpack/cli.py:508-514 -/
def infoNamed (E : Env μ) (name : String) (fs : FS) : Except Err (InfoRead μ) × FS :=
  match fs.openRead name with
  | .error e => (.error e, fs)
  | .ok d => ((infoRead E { data := d }).1, fs)

/-- the `info` subcommand, bloscpack/cli.py:500-528 -/
def cliInfo (E : Env μ) (S : Shown μ) (args : CliArgs) : Proc World Unit := do
  requireFile "file" args.file_
  attempt (onFS (infoNamed E args.file_)) (infoHandler S)

/-- `main` from bloscpack/cli.py:444-532: the dispatch on the subcommand -/
def cliMain (E : Env μ) (S : Shown μ) (args : CliArgs) : Proc World Unit :=
  if args.subcommand = some "compress" ∨ args.subcommand = some "c" then cliCompress E args
  else if args.subcommand = some "decompress" ∨ args.subcommand = some "d" then cliDecompress E S args
  else if args.subcommand = some "append" ∨ args.subcommand = some "a" then cliAppend E args
  else if args.subcommand = some "info" ∨ args.subcommand = some "i" then cliInfo E S args
  else onLog (logError "too few arguments".toList 2)

/-- the assignment to `log.LEVEL`, bloscpack/cli.py:434-437 -/
def setVerbosity (args : CliArgs) : Proc Log Unit :=
  if args.verbose then Proc.modify (fun s => { s with level := "VERBOSE" })
  else if args.debug then Proc.modify (fun s => { s with level := "DEBUG" })
  else Proc.pure ()

/-- a sequence of `log.debug` (`true`) and `log.verbose` (`false`) calls -/
def chatter : List (Bool × List Char) → Proc Log Unit
  | [] => Proc.pure ()
  | (d, message) :: rest => do
    verbose message (if d then "DEBUG" else "VERBOSE")
    chatter rest

/-- `main` after the command line was parsed, bloscpack/cli.py:434-533 -/
def blpkRun (E : Env μ) (S : Shown μ) (args : CliArgs) : Proc World Unit := do
  onLog (setVerbosity args)
  (fun w => onLog (chatter (S.chat args w.fs)) w)
  cliMain E S args
  onLog (verbose "done".toList)

/-- `main`, bloscpack/cli.py:430-533, as the program `blpk` called as `prog`, starting with the log module's initial
state (bloscpack/log.py:14-15), with the command line parsed to `args` -/
def blpk (E : Env μ) (S : Shown μ) (prog : List Char) (args : CliArgs) (fs : FS) : Except Err Unit × World :=
  (do
    onLog (setPrefix prog)
    blpkRun E S args : Proc World Unit) { fs := fs }

end Bloscpack
