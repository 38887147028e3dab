import Verif.Props.Cli
/-
C68: `-v` and `-d` change what is printed, nothing else.
-/
namespace Bloscpack
variable {μ : Type}

/-- the same command line without `-v` and `-d` -/
def Spec.quietly (args : CliArgs) : CliArgs := { args with verbose := false, debug := false }

/-- C68: whatever the messages of `log.verbose` and `log.debug` are, the tool called with `-v` or `-d` ends with the same result and the
same files as without, and prints the same lines in the same order, with the messages before them. After success the last
line is `done`; after a failure nothing is printed after the lines printed without `-v` and `-d`. -/
theorem C68_verbosity (E : Env μ) (S : Shown μ) (prog : List Char) (args : CliArgs) (fs : FS)
    (hloud : args.verbose = true ∨ args.debug = true) :
    (blpk E S prog args fs).1 = (blpk E S prog (Spec.quietly args) fs).1 ∧
    (blpk E S prog args fs).2.fs = (blpk E S prog (Spec.quietly args) fs).2.fs ∧
    ∃ messages, (blpk E S prog args fs).2.log.out = messages ++ (blpk E S prog (Spec.quietly args) fs).2.log.out ++
      (match (blpk E S prog (Spec.quietly args) fs).1 with
      | .ok _ => [prog ++ ": done".toList]
      | .error _ => []) := by
  have hlev := startWorld_level prog args fs
  have hsame : cliMain E S (Spec.quietly args) = cliMain E S args := rfl
  obtain ⟨h1, h2, before, h3, -⟩ := blpk_run E S prog args fs (startWorld prog args fs) rfl rfl hlev rfl
  obtain ⟨g1, g2, before', g3, g4⟩ := blpk_run E S prog (Spec.quietly args) fs (startWorld prog args fs) rfl rfl hlev rfl
  rw [g4 rfl rfl, if_neg (by rintro ⟨-, h | h⟩ <;> cases h), List.append_nil, List.nil_append] at g3
  rw [hsame] at g1 g2 g3
  refine ⟨h1.trans g1.symm, h2.trans g2.symm, before, ?_⟩
  rw [h3, g3, g1]
  congr 1
  cases (cliMain E S args (startWorld prog args fs)).1 with
  | ok u => exact if_pos ⟨rfl, hloud⟩
  | error e => exact if_neg (by rintro ⟨h, -⟩; cases h)

/-- C68: without `-v` and `-d` the messages do not matter at all. -/
theorem C68_quiet (E : Env μ) (S : Shown μ) (chat : CliArgs → FS → List (Bool × List Char)) (prog : List Char) (args : CliArgs) (fs : FS)
    (hv : args.verbose = false) (hd : args.debug = false) :
    (blpk E { S with chat := chat } prog args fs).1 = (blpk E S prog args fs).1 ∧
    (blpk E { S with chat := chat } prog args fs).2.fs = (blpk E S prog args fs).2.fs ∧
    (blpk E { S with chat := chat } prog args fs).2.log.out = (blpk E S prog args fs).2.log.out := by
  have hlev := startWorld_level prog args fs
  have hsame : cliMain E { S with chat := chat } args = cliMain E S args := rfl
  obtain ⟨h1, h2, before, h3, h4⟩ := blpk_run E S prog args fs (startWorld prog args fs) rfl rfl hlev rfl
  obtain ⟨g1, g2, before', g3, g4⟩ := blpk_run E { S with chat := chat } prog args fs (startWorld prog args fs) rfl rfl hlev rfl
  rw [hsame] at g1 g2 g3
  exact ⟨g1.trans h1.symm, g2.trans h2.symm, by rw [g3, h3, g4 hv hd, h4 hv hd]⟩

/-- with `-v`: the verbose messages but not the debug messages, the lines printed anyway, `done` -/
example :
    (let S := { CliExample.shown with chat := fun _ _ => [(true, "arguments".toList), (false, "input\noutput".toList)] }
     let r := blpk Toy.env S "blpk".toList { subcommand := some "info", file_ := "f.blp", verbose := true }
      (blpk Toy.env S [] CliExample.cArgs CliExample.fs).2.fs
     (r.2.log.out.take 3).map String.ofList = ["blpk: input", "blpk: output", "blpk: BloscpackHeader:"] ∧
     r.2.log.out.getLast?.map String.ofList = some "blpk: done") := by
  decide +kernel

/-- with `-d`, and a failure -/
example :
    (let S := { CliExample.shown with chat := fun _ _ => [(true, "arguments".toList), (false, "input".toList)] }
     (blpk Toy.env S "blpk".toList { CliExample.cArgs with out_file := some "f", debug := true } CliExample.fs).2.log.out.map String.ofList =
      ["blpk: arguments", "blpk: input", "blpk: error: output file 'f' exists!"]) := by
  decide +kernel

end Bloscpack
