import Verif.Model.Cli
/-
Model of `create_parser`, bloscpack/cli.py:206-427: the options of the command line tool. Not modelled: how argparse splits the words
of the command line into options with their values and positional arguments (abbreviations, `--option=value`, joined short options,
`--`), and the texts of help, version and usage messages.
-/
namespace Bloscpack
variable {μ : Type}

/-- A part of the command line, as argparse splits it: an option without a value, an option with a value, or anything else. Options are
given as they are spelled (abbreviations are completed by argparse). -/
inductive CliItem where
  | flag (option : String)
  | value (option : String) (v : List Char)
  | positional (name : String)
  deriving DecidableEq, Repr

/-- what the parser gets from elsewhere: `blosc.BLOSC_MAX_THREADS`, `blosc.ncores`, and whether argparse takes an optional positional
argument as absent as soon as an option follows the positional arguments before it (it did until Python 3.12) -/
structure ParserEnv where
  max_threads : Int
  ncores : Int
  eager : Bool := false

/-- the result of parsing: the namespace, and what argparse keeps while parsing -/
structure Parsed where
  args : CliArgs := {}
  nthreads : Int
  positionals : List String := []
  /-- argparse does not take further positional arguments -/
  closed : Bool := false
  /-- there were arguments argparse did not recognize; the usage error comes at the end -/
  extras : Bool := false

/-- argparse's `error`: prints the usage and a message to standard error, `sys.exit(2)` -/
def usageError {α : Type} : Proc Log α := Proc.raise (.systemExit 2)

/-- `--help` and `--version`: prints to standard output, `sys.exit(0)`. Simplification: the text is not modelled. -/
def printAndExit {α : Type} : Proc Log α := Proc.raise (.systemExit 0)

/-- `CheckThreadOption`, bloscpack/cli.py:266-271 -/
def checkThreadOption (P : ParserEnv) (option_string : String) (value : Int) : Proc Log Int :=
  if ¬ (1 ≤ value ∧ value ≤ P.max_threads) then
    logError (option_string.toList ++ " must be 1 <= n <= ".toList ++ (toString P.max_threads).toList)
  else Proc.pure value

/-- the options before the subcommand, bloscpack/cli.py:246-281; `-v` and `-d` exclude each other -/
inductive GlobalOpt where
  | help | version | verbose | debug | force | nthreads
  deriving DecidableEq, Repr

/-- how the options before the subcommand are spelled, bloscpack/cli.py:246-281; argparse adds `-h` -/
def globalOptions : List (String × GlobalOpt) :=
  [("-h", .help), ("--help", .help), ("--version", .version), ("-v", .verbose), ("--verbose", .verbose), ("-d", .debug),
    ("--debug", .debug), ("-f", .force), ("--force", .force), ("-n", .nthreads), ("--nthreads", .nthreads)]

/-- an option before the subcommand without a value, bloscpack/cli.py:246-281 -/
def globalFlag (s : Parsed) : GlobalOpt → Proc Log Parsed
  | .help => printAndExit
  | .version => printAndExit
  | .verbose => if s.args.debug then usageError else Proc.pure { s with args := { s.args with verbose := true } }
  | .debug => if s.args.verbose then usageError else Proc.pure { s with args := { s.args with debug := true } }
  | .force => Proc.pure { s with args := { s.args with force := true } }
  | .nthreads => usageError

/-- an option before the subcommand with a value, bloscpack/cli.py:246-281 -/
def globalValue (P : ParserEnv) (s : Parsed) (o : String) (v : List Char) : GlobalOpt → Proc Log Parsed
  | .nthreads =>
    match pyInt v with
    | none => usageError
    | some n => do
      let n ← checkThreadOption P o n
      Proc.pure { s with nthreads := n }
  | _ => usageError

/-- an option before the subcommand -/
def globalOption (P : ParserEnv) (s : Parsed) : CliItem → Proc Log Parsed
  | .flag o =>
    match globalOptions.lookup o with
    | none => Proc.pure { s with extras := true }
    | some g => globalFlag s g
  | .value o v =>
    match globalOptions.lookup o with
    | none => Proc.pure { s with extras := true }
    | some g => globalValue P s o v g
  | .positional _ => usageError

/-- `CheckChunkSizeOption`, bloscpack/cli.py:291-308. Simplification: of the message of the `ValueError` nothing is modelled. -/
def checkChunkSizeOption (option_string : String) (value : List Char) : Proc Log Int :=
  if value = "max".toList then Proc.pure BLOSC_MAX_BUFFERSIZE
  else
    let r : Except Err Int :=
      match value.getLast? with
      | none => .error .indexError
      | some c =>
        if (suffixValue c).isSome then reversePretty value
        else
          match pyInt value with
          | none => .error .valueError
          | some i => .ok i
    match r with
    | .error e => if e.isValueError then logError (option_string.toList ++ " error: ".toList ++ someMessage) else Proc.raise e
    | .ok v => if v < 0 then logError (option_string.toList ++ " must be > 0".toList) else Proc.pure v

/-- the options of the subcommands -/
inductive Opt where
  | help | typesize | clevel | shuffle | cname | chunk_size | checksum | offsets | metadata | no_check_extension
  deriving DecidableEq, Repr

/-- `_inject_blosc_group`, bloscpack/cli.py:206-230 -/
def bloscOptions : List (String × Opt) :=
  [("-t", .typesize), ("--typesize", .typesize), ("-l", .clevel), ("--clevel", .clevel), ("-s", .shuffle), ("--no-shuffle", .shuffle),
    ("-c", .cname), ("--codec", .cname)]

/-- the options of `compress`, bloscpack/cli.py:310-342 -/
def compressOptions : List (String × Opt) :=
  bloscOptions ++
    [("-z", .chunk_size), ("--chunk-size", .chunk_size), ("-k", .checksum), ("--checksum", .checksum), ("-o", .offsets),
      ("--no-offsets", .offsets), ("-m", .metadata), ("--metadata", .metadata)]

/-- the options of `decompress`, bloscpack/cli.py:353-359 -/
def decompressOptions : List (String × Opt) := [("-e", .no_check_extension), ("--no-check-extension", .no_check_extension)]

/-- the options of `append`, bloscpack/cli.py:396-415 -/
def appendOptions : List (String × Opt) :=
  bloscOptions ++ [("-e", .no_check_extension), ("--no-check-extension", .no_check_extension), ("-m", .metadata), ("--metadata", .metadata)]

/-- the subcommands with their options, bloscpack/cli.py:283-427; argparse adds `-h` -/
def subparsers : List (String × List (String × Opt)) :=
  [("compress", compressOptions), ("c", compressOptions), ("decompress", decompressOptions), ("d", decompressOptions),
    ("append", appendOptions), ("a", appendOptions), ("info", []), ("i", [])].map
      (fun p => (p.1, [("-h", .help), ("--help", .help)] ++ p.2))

/-- options without a value: `store_true` and `store_false` -/
def setFlag (args : CliArgs) : Opt → Proc Log CliArgs
  | .shuffle => Proc.pure { args with blosc := { args.blosc with shuffle := 0 } }
  | .offsets => Proc.pure { args with offsets := false }
  | .no_check_extension => Proc.pure { args with no_check_extension := true }
  | .help => printAndExit
  | _ => usageError

/-- options with a value: conversion by `type`, check of `choices`, and the action -/
def setValue (E : Env μ) (args : CliArgs) (o : String) (v : List Char) : Opt → Proc Log CliArgs
  | .typesize =>
    match pyInt v with
    | none => usageError
    | some n => Proc.pure { args with blosc := { args.blosc with typesize := n } }
  | .clevel =>
    match pyInt v with
    | none => usageError
    | some n => if 0 ≤ n ∧ n ≤ MAX_CLEVEL then Proc.pure { args with blosc := { args.blosc with clevel := n } } else usageError
  | .cname =>
    if String.ofList v ∈ E.cnames then Proc.pure { args with blosc := { args.blosc with cname := String.ofList v } } else usageError
  | .chunk_size => do
    let n ← checkChunkSizeOption o v
    Proc.pure { args with chunk_size := .int n }
  | .checksum =>
    if String.ofList v ∈ checksumsAvail then Proc.pure { args with checksum := String.ofList v } else usageError
  | .metadata => Proc.pure { args with metadata := some (String.ofList v) }
  | _ => usageError

/-- an option of a subcommand: the options are set, or it is not recognized (`none`) -/
def subOption (E : Env μ) (options : List (String × Opt)) (args : CliArgs) : CliItem → Proc Log (Option CliArgs)
  | .flag o =>
    match options.lookup o with
    | none => Proc.pure none
    | some opt => do
      let args ← setFlag args opt
      Proc.pure (some args)
  | .value o v =>
    match options.lookup o with
    | none => Proc.pure none
    | some opt => do
      let args ← setValue E args o v opt
      Proc.pure (some args)
  | .positional _ => Proc.pure none

/-- is the second positional argument optional? `nargs='?'`, bloscpack/cli.py:361-385 -/
def optionalSecond (sub : String) : Bool := sub = "compress" || sub = "c" || sub = "decompress" || sub = "d"

/-- argparse's loop over the arguments of a subcommand -/
def parseCliItems (E : Env μ) (P : ParserEnv) (sub : String) (options : List (String × Opt)) : List CliItem → Parsed → Proc Log Parsed
  | [], s => Proc.pure s
  | .positional name :: rest, s =>
    parseCliItems E P sub options rest
      (if s.closed then { s with extras := true } else { s with positionals := s.positionals ++ [name] })
  | item :: rest, s => do
    let r ← subOption E options s.args item
    parseCliItems E P sub options rest
      { s with
        args := r.getD s.args
        extras := s.extras || r.isNone
        closed := s.closed || (P.eager && optionalSecond sub && s.positionals ≠ []) }

/-- the positional arguments, bloscpack/cli.py:361-385, 396-403, 424-428: too few or too many are usage errors -/
def assignPositionals (sub : String) (s : Parsed) : Proc Log Parsed :=
  if s.extras then usageError
  else if optionalSecond sub then
    match s.positionals with
    | [i] => Proc.pure { s with args := { s.args with in_file := i } }
    | [i, o] => Proc.pure { s with args := { s.args with in_file := i, out_file := some o } }
    | _ => usageError
  else if sub = "append" ∨ sub = "a" then
    match s.positionals with
    | [o, n] => Proc.pure { s with args := { s.args with original_file := o, new_file := n } }
    | _ => usageError
  else
    match s.positionals with
    | [f] => Proc.pure { s with args := { s.args with file_ := f } }
    | _ => usageError

/-- a command line: the options before the subcommand, the subcommand, and what follows it -/
structure CommandLine where
  globals : List CliItem := []
  subcommand : Option (String × List CliItem) := none

/-- the loop over the options before the subcommand -/
def parseGlobals (P : ParserEnv) : List CliItem → Parsed → Proc Log Parsed
  | [], s => Proc.pure s
  | item :: rest, s => do
    let s ← globalOption P s item
    parseGlobals P rest s

/-- `parser.parse_args()`, bloscpack/cli.py:433, with the parser of `create_parser`, bloscpack/cli.py:233-428 -/
def parseArgs (E : Env μ) (P : ParserEnv) (c : CommandLine) : Proc Log Parsed := do
  let s ← parseGlobals P c.globals { nthreads := P.ncores }
  match c.subcommand with
  | none => if s.extras then usageError else Proc.pure s
  | some (sub, items) =>
    match subparsers.lookup sub with
    | none => usageError
    | some options => do
      let s ← parseCliItems E P sub options items { s with args := { s.args with subcommand := some sub } }
      assignPositionals sub s

/-- `main`, bloscpack/cli.py:430-533. Simplification: `blosc.set_nthreads` (bloscpack/cli.py:168-173) has no effect that is modelled. -/
def blpkMain (E : Env μ) (S : Shown μ) (P : ParserEnv) (prog : List Char) (c : CommandLine) (fs : FS) : Except Err Unit × World :=
  (do
    onLog (setPrefix prog)
    let s ← onLog (parseArgs E P c)
    blpkRun E S s.args : Proc World Unit) { fs := fs }

end Bloscpack
