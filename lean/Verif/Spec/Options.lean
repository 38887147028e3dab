import Verif.Model.Options
/-
Specification of the command line: which options there are, which command lines are accepted, and what they mean. Of the model it uses
the types, and `pyInt` and `reversePretty` for Python's `int` and for `reverse_pretty`; which texts these read, and as which numbers, is
said in terms of Spec/Text.lean by `C72_int`, `C38_exact` and `C69_size`.
-/
namespace Bloscpack.Spec
variable {μ : Type}

inductive Command where
  | compress | decompress | append | info
  deriving DecidableEq, Repr

/-- the names of the subcommands -/
def commands : List (String × Command) :=
  [("compress", .compress), ("c", .compress), ("decompress", .decompress), ("d", .decompress), ("append", .append), ("a", .append),
    ("info", .info), ("i", .info)]

/-- how the options of the subcommands are spelled -/
def names : Opt → List String
  | .help => ["-h", "--help"]
  | .typesize => ["-t", "--typesize"]
  | .clevel => ["-l", "--clevel"]
  | .shuffle => ["-s", "--no-shuffle"]
  | .cname => ["-c", "--codec"]
  | .chunk_size => ["-z", "--chunk-size"]
  | .checksum => ["-k", "--checksum"]
  | .offsets => ["-o", "--no-offsets"]
  | .metadata => ["-m", "--metadata"]
  | .no_check_extension => ["-e", "--no-check-extension"]

/-- how the options before the subcommand are spelled -/
def globalNames : GlobalOpt → List String
  | .help => ["-h", "--help"]
  | .version => ["--version"]
  | .verbose => ["-v", "--verbose"]
  | .debug => ["-d", "--debug"]
  | .force => ["-f", "--force"]
  | .nthreads => ["-n", "--nthreads"]

/-- the options of each subcommand -/
def takes : Command → List Opt
  | .compress => [.help, .typesize, .clevel, .shuffle, .cname, .chunk_size, .checksum, .offsets, .metadata]
  | .decompress => [.help, .no_check_extension]
  | .append => [.help, .typesize, .clevel, .shuffle, .cname, .no_check_extension, .metadata]
  | .info => [.help]

/-- the size that is meant by the value of `-z`, if any: `max`, a size with one of the suffixes, or a number of bytes -/
def chunkSize (v : List Char) : Option Int :=
  if v = "max".toList then some 2147483631
  else
    match v.getLast? with
    | none => none
    | some c =>
      match (if c ∈ "BKMGT".toList then (reversePretty v).toOption else pyInt v) with
      | none => none
      | some n => if 0 ≤ n then some n else none

/-- is this a possible value of the option? -/
def ValidValue (E : Env μ) (v : List Char) : Opt → Prop
  | .typesize => ∃ n, pyInt v = some n
  | .clevel => ∃ n, pyInt v = some n ∧ 0 ≤ n ∧ n ≤ 9
  | .cname => String.ofList v ∈ E.cnames
  | .chunk_size => ∃ n, chunkSize v = some n
  | .checksum => String.ofList v ∈ checksumsAvail
  | .metadata => True
  | _ => False

/-- a part of the command line after the subcommand that is fine: a switch of the subcommand, an option of the subcommand with a
possible value, or a file name -/
def GoodItem (E : Env μ) (cmd : Command) : CliItem → Prop
  | .flag o => ∃ opt ∈ takes cmd, o ∈ names opt ∧ opt ∈ [Opt.shuffle, .offsets, .no_check_extension]
  | .value o v => ∃ opt ∈ takes cmd, o ∈ names opt ∧ ValidValue E v opt
  | .positional _ => True

/-- a part of the command line before the subcommand that is fine -/
def GoodGlobal (P : ParserEnv) : CliItem → Prop
  | .flag o => ∃ g ∈ [GlobalOpt.verbose, .debug, .force], o ∈ globalNames g
  | .value o v => o ∈ globalNames .nthreads ∧ ∃ n, pyInt v = some n ∧ 1 ≤ n ∧ n ≤ P.max_threads
  | .positional _ => False

/-- was this switch given? -/
def switch (names : List String) (items : List CliItem) : Bool :=
  items.any (fun i => match i with
    | .flag o => o ∈ names
    | _ => false)

/-- the values given for an option, in order -/
def valuesOf (names : List String) (items : List CliItem) : List (List Char) :=
  items.filterMap (fun i => match i with
    | .value o v => if o ∈ names then some v else none
    | _ => none)

/-- the setting: what the last value means, or the default -/
def setting {α : Type} (names : List String) (items : List CliItem) (default : α) (read : List Char → α) : α :=
  match (valuesOf names items).getLast? with
  | none => default
  | some v => read v

/-- the file names given -/
def positionals (items : List CliItem) : List String :=
  items.filterMap (fun i => match i with
    | .positional n => some n
    | _ => none)

/-- no option stands between the file names -/
def Together (items : List CliItem) : Prop :=
  ∃ (a : List CliItem) (files : List String) (b : List CliItem), items = a ++ files.map CliItem.positional ++ b ∧ positionals a = [] ∧ positionals b = []

/-- the number of file names each subcommand wants -/
def Counts (cmd : Command) (n : Nat) : Prop :=
  match cmd with
  | .compress | .decompress => n = 1 ∨ n = 2
  | .append => n = 2
  | .info => n = 1

/-- the command lines that are accepted -/
def Accepted (E : Env μ) (P : ParserEnv) (c : CommandLine) : Prop :=
  (∀ i ∈ c.globals, GoodGlobal P i) ∧ ¬ (switch (globalNames .verbose) c.globals = true ∧ switch (globalNames .debug) c.globals = true) ∧
  ∀ name items, c.subcommand = some (name, items) →
    ∃ cmd, (name, cmd) ∈ commands ∧ (∀ i ∈ items, GoodItem E cmd i) ∧ Counts cmd (positionals items).length ∧
      (P.eager = true → cmd = .compress ∨ cmd = .decompress → Together items)

/-- what the arguments of the subcommand mean, with the documented defaults -/
def commandSettings (args : CliArgs) (items : List CliItem) : CliArgs :=
  { args with
    blosc :=
      { typesize := setting (names .typesize) items 8 (fun v => (pyInt v).getD 0)
        clevel := setting (names .clevel) items 7 (fun v => (pyInt v).getD 0)
        shuffle := if switch (names .shuffle) items then 0 else 1
        cname := setting (names .cname) items "blosclz" String.ofList }
    chunk_size := setting (names .chunk_size) items (.str "1M".toList) (fun v => .int ((chunkSize v).getD 0))
    checksum := setting (names .checksum) items "adler32" String.ofList
    offsets := !switch (names .offsets) items
    metadata := setting (names .metadata) items none (fun v => some (String.ofList v))
    no_check_extension := switch (names .no_check_extension) items }

/-- the file names of the subcommand -/
def withFiles (args : CliArgs) : Command → List String → CliArgs
  | .compress, l | .decompress, l => { args with in_file := (l[0]?).getD "", out_file := l[1]? }
  | .append, l => { args with original_file := (l[0]?).getD "", new_file := (l[1]?).getD "" }
  | .info, l => { args with file_ := (l[0]?).getD "" }

/-- what the command line means -/
def settings (c : CommandLine) : CliArgs :=
  let g : CliArgs :=
    { verbose := switch (globalNames .verbose) c.globals
      debug := switch (globalNames .debug) c.globals
      force := switch (globalNames .force) c.globals }
  match c.subcommand with
  | none => g
  | some (name, items) =>
    match commands.lookup name with
    | none => g
    | some cmd => withFiles (commandSettings { g with subcommand := some name } items) cmd (positionals items)

/-- the ways a command line is refused, with the exception that ends the program and the lines printed by the log module: a usage error
or a help text is printed by argparse; a number of threads or a chunk size is refused with an error message; the empty chunk size and
infinite chunk sizes end with a traceback -/
inductive Refusal (P : ParserEnv) (globals items : List CliItem) (prog : List Char) : Err → List (List Char) → Prop
  | usage : Refusal P globals items prog (.systemExit 2) []
  | help (o : String) (hi : CliItem.flag o ∈ globals ++ items) (ho : o ∈ ["-h", "--help", "--version"]) :
      Refusal P globals items prog (.systemExit 0) []
  | nthreads (o : String) (v : List Char) (n : Int) (lines : List (List Char)) (hi : CliItem.value o v ∈ globals)
      (ho : o ∈ globalNames .nthreads) (hn : pyInt v = some n) (hbad : ¬ (1 ≤ n ∧ n ≤ P.max_threads)) (hl : lines ≠ [])
      (hp : ∀ l ∈ lines, prog ++ ": error: ".toList <+: l) : Refusal P globals items prog (.systemExit 1) lines
  | chunk_size (o : String) (v : List Char) (lines : List (List Char)) (hi : CliItem.value o v ∈ items) (ho : o ∈ names .chunk_size)
      (hne : v ≠ []) (hbad : chunkSize v = none) (hl : lines ≠ []) (hp : ∀ l ∈ lines, prog ++ ": error: ".toList <+: l) :
      Refusal P globals items prog (.systemExit 1) lines
  | empty (o : String) (hi : CliItem.value o [] ∈ items) (ho : o ∈ names .chunk_size) : Refusal P globals items prog .indexError []
  | infinite (o : String) (v : List Char) (hi : CliItem.value o v ∈ items) (ho : o ∈ names .chunk_size)
      (hv : reversePretty v = .error .overflowError) : Refusal P globals items prog .overflowError []

end Bloscpack.Spec
