import Verif.Spec.Options
/-
Specification of sessions: command lines of `blpk` run one after the other, and what an archive is expected to hold.
-/
namespace Bloscpack.Spec
variable {μ : Type}

/-- the files a command line may change: the output of `compress` and `decompress` (if no output, or an empty one, is named: the input
name with or without `.blp`), the archive given to `append` -/
inductive MayWrite (c : CommandLine) : String → Prop
  | compress (name : String) (items : List CliItem) (inp : String) (hc : c.subcommand = some (name, items))
      (hname : name = "compress" ∨ name = "c") (hfiles : positionals items = [inp] ∨ positionals items = [inp, ""]) :
      MayWrite c (inp ++ ".blp")
  | decompress (name : String) (items : List CliItem) (inp : String) (hc : c.subcommand = some (name, items))
      (hname : name = "decompress" ∨ name = "d")
      (hfiles : positionals items = [inp ++ ".blp"] ∨ positionals items = [inp ++ ".blp", ""]) : MayWrite c inp
  | named (name : String) (items : List CliItem) (inp out : String) (hc : c.subcommand = some (name, items))
      (hname : name = "compress" ∨ name = "c" ∨ name = "decompress" ∨ name = "d") (hfiles : positionals items = [inp, out]) : MayWrite c out
  | append (name : String) (items : List CliItem) (original new : String) (hc : c.subcommand = some (name, items))
      (hname : name = "append" ∨ name = "a") (hfiles : positionals items = [original, new]) : MayWrite c original

/-- one run of `blpk append`: did it succeed, was `-m` given, what was in the metadata file (`none`: nothing or `null`), what was in the
new file -/
structure AppendRun (μ : Type) where
  ok : Bool
  withMetadata : Bool
  want : Option μ
  new : Bytes

/-- what the archive holds, as data and metadata, before and after the run: a successful run appends the new data and replaces the metadata, if
asked to; a failed run does nothing or, only if new metadata was given, appends the new data -/
def AppendRun.Effect (r : AppendRun μ) (before after : Bytes × Option μ) : Prop :=
  if r.ok then after = (before.1 ++ r.new, if r.want.isSome then r.want else before.2)
  else after = before ∨ (r.withMetadata = true ∧ after = (before.1 ++ r.new, before.2))

/-- the effect of several runs -/
def Effects : List (AppendRun μ) → Bytes × Option μ → Bytes × Option μ → Prop
  | [], before, after => after = before
  | r :: rest, before, after => ∃ x, r.Effect before x ∧ Effects rest x after

/-- `Session E S P prog O d l d'`: command lines are run one after the other, and other programs may do anything to files other than `O`
in between. At the beginning the archive `O` has the contents `d`, at the end `d'`. The runs of `blpk append O …` are those of `l`; the
other command lines are arbitrary, but do not write to `O`. -/
inductive Session (E : Env μ) (S : Shown μ) (P : ParserEnv) (prog : List Char) (O : String) : Bytes → List (AppendRun μ) → Bytes → Prop
  | nil (d : Bytes) : Session E S P prog O d [] d
  | other {d d' d'' : Bytes} {l : List (AppendRun μ)} (c : CommandLine) (fs : FS) (hd : fs.files O = some d) (hc : ¬ MayWrite c O)
      (hd' : (blpkMain E S P prog c fs).2.fs.files O = some d') (rest : Session E S P prog O d' l d'') : Session E S P prog O d l d''
  | append {d d' d'' : Bytes} {l : List (AppendRun μ)} (r : AppendRun μ) (c : CommandLine) (fs : FS) (name : String) (items : List CliItem)
      (N : String) (hd : fs.files O = some d) (hc : c.subcommand = some (name, items)) (hname : name = "append" ∨ name = "a")
      (hfiles : positionals items = [O, N]) (hN : N ≠ O) (hnew : r.new = (fs.files N).getD [])
      (hsize : d.length + 100 * r.new.length < 2 ^ 62)
      (hok : r.ok = true ↔ (blpkMain E S P prog c fs).1 = .ok ())
      (hm : r.withMetadata = true ↔ valuesOf ["-m", "--metadata"] items ≠ [])
      (hwant : match (valuesOf ["-m", "--metadata"] items).getLast? with
        | none => r.want = none
        | some file => ∀ content x, fs.files (String.ofList file) = some content → E.loads (stripBytes content) = .ok x → r.want = x)
      (hd' : (blpkMain E S P prog c fs).2.fs.files O = some d') (rest : Session E S P prog O d' l d'') :
      Session E S P prog O d (r :: l) d''

end Bloscpack.Spec
