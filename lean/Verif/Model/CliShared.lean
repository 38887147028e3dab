import Verif.Model.Cli
/-
Model of bloscpack/cli.py where other programs change files between two steps of `blpk compress` and `blpk decompress`.
-/
namespace Bloscpack
variable {μ : Type}

/-- other programs change the files -/
def meanwhile (others : FS → FS) : Proc World Unit := fun w => (.ok (), { w with fs := others w.fs })

/-- the `compress` subcommand, bloscpack/cli.py:445-463, where other programs do `others₁` after the names have been checked and `others₂`
after the metadata have been read. Simplification: nobody changes files while `pack_file_to_file` is running (for that see C67). -/
def cliCompressAmid (E : Env μ) (others₁ others₂ : FS → FS) (args : CliArgs) : Proc World Unit := do
  checkFilesOrExit args.in_file (compressionOut args) args.force
  meanwhile others₁
  let metadata ← processMetadataArgs E args
  meanwhile others₂
  attempt (onFS (fun fs => packFileToFile E fs args.in_file (compressionOut args) args.chunk_size metadata args.blosc
      { offsets := args.offsets, checksum := args.checksum } {}))
    compressHandler

/-- the `decompress` subcommand, bloscpack/cli.py:464-478, where other programs do `others` after the names have been checked. The same
simplification. -/
def cliDecompressAmid (E : Env μ) (S : Shown μ) (others : FS → FS) (args : CliArgs) : Proc World Unit := do
  let out_file ← onLog (decompressionOut args)
  checkFilesOrExit args.in_file out_file args.force
  meanwhile others
  attempt (onFS (fun fs => unpackFileFromFile E fs args.in_file out_file)) (decompressHandler S)

/-- the dispatch on the subcommand, bloscpack/cli.py:444-532. Simplification: the other subcommands are as in `cliMain`, alone. -/
def cliMainAmid (E : Env μ) (S : Shown μ) (others₁ others₂ : FS → FS) (args : CliArgs) : Proc World Unit :=
  if args.subcommand = some "compress" ∨ args.subcommand = some "c" then cliCompressAmid E others₁ others₂ args
  else if args.subcommand = some "decompress" ∨ args.subcommand = some "d" then cliDecompressAmid E S (fun fs => others₂ (others₁ fs)) args
  else cliMain E S args

/-- `main`, bloscpack/cli.py:430-533 -/
def blpkAmid (E : Env μ) (S : Shown μ) (prog : List Char) (others₁ others₂ : FS → FS) (args : CliArgs) (fs : FS) :
    Except Err Unit × World :=
  (do
    onLog (setPrefix prog)
    onLog (setVerbosity args)
    (fun w => onLog (chatter (S.chat args w.fs)) w)
    cliMainAmid E S others₁ others₂ args
    onLog (verbose "done".toList) : Proc World Unit) { fs := fs }

end Bloscpack
