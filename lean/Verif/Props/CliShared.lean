import Verif.Model.CliShared
import Verif.Props.Cli
/-
C111: `blpk` among other programs.
-/
namespace Bloscpack
variable {μ : Type}

/-! ### lemmas -/

theorem Oblivious.meanwhile (others : FS → FS) : Oblivious WorldSim (meanwhile others) := by
  intro k w w' h
  exact ⟨rfl, by show others w'.fs = others w.fs; rw [h.fs], h.log⟩

theorem Oblivious.cliCompressAmid (E : Env μ) (o₁ o₂ : FS → FS) (args : CliArgs) : Oblivious WorldSim (cliCompressAmid E o₁ o₂ args) := by
  refine .bind (.checkFilesOrExit _ _ _) fun _ => .bind (.meanwhile _) fun _ => .bind (.processMetadataArgs E args) fun _ =>
    .bind (.meanwhile _) fun _ => .attempt (.onFS _) fun r => ?_
  unfold compressHandler
  split
  · exact .pure _
  · exact (Oblivious.logError _ _).onLog
  · exact .raise _

theorem Oblivious.cliDecompressAmid (E : Env μ) (S : Shown μ) (o : FS → FS) (args : CliArgs) :
    Oblivious WorldSim (cliDecompressAmid E S o args) := by
  refine .bind (.onLog ?_) fun _ => .bind (.checkFilesOrExit _ _ _) fun _ => .bind (.meanwhile _) fun _ => .attempt (.onFS _) fun r => ?_
  · unfold decompressionOut
    repeat' split
    all_goals first | exact .logError _ _ | exact .pure _
  · unfold decompressHandler
    repeat' split
    all_goals first | exact .pure _ | exact (Oblivious.logMetadata S _).onLog | exact .raise _

theorem Oblivious.cliMainAmid (E : Env μ) (S : Shown μ) (o₁ o₂ : FS → FS) (args : CliArgs) : Oblivious WorldSim (cliMainAmid E S o₁ o₂ args) := by
  unfold Bloscpack.cliMainAmid
  repeat' split
  · exact .cliCompressAmid E o₁ o₂ args
  · exact .cliDecompressAmid E S _ args
  · exact .cliMain E S args

/-- the outcome is that of the subcommand -/
theorem blpkAmid_run (E : Env μ) (S : Shown μ) (prog : List Char) (o₁ o₂ : FS → FS) (args : CliArgs) (fs : FS) :
    (blpkAmid E S prog o₁ o₂ args fs).1 = (cliMainAmid E S o₁ o₂ args (startWorld prog args fs)).1 ∧
    (blpkAmid E S prog o₁ o₂ args fs).2.fs = (cliMainAmid E S o₁ o₂ args (startWorld prog args fs)).2.fs := by
  have h0 : blpkAmid E S prog o₁ o₂ args fs = (do
      onLog (chatter (S.chat args fs))
      cliMainAmid E S o₁ o₂ args
      onLog (verbose "done".toList) : Proc World Unit) (startWorld prog args fs) := by
    unfold blpkAmid setVerbosity startWorld
    cases hv : args.verbose <;> cases hd : args.debug <;> rfl
  obtain ⟨lines, h1, h2⟩ := chatter_run (S.chat args fs) (startWorld prog args fs).log (startWorld_level prog args fs)
  have h1' : onLog (chatter (S.chat args fs)) (startWorld prog args fs) =
      (.ok (), { startWorld prog args fs with log := { (startWorld prog args fs).log with out := lines } }) := by
    unfold onLog
    rw [h1]
    rfl
  generalize hw' : ({ startWorld prog args fs with log := { (startWorld prog args fs).log with out := lines } } : World) = w' at h1'
  have hlevel : w'.log.level = (startWorld prog args fs).log.level := by rw [← hw']
  have hsim : WorldSim ⟨lines, prog, (startWorld prog args fs).log.level, w'.log.level⟩ (startWorld prog args fs) w' :=
    ⟨by rw [← hw'], rfl, by rw [← hw']; rfl, rfl, rfl, startWorld_level prog args fs, by rw [hlevel]; exact startWorld_level prog args fs,
      by rw [← hw']; exact (List.append_nil _).symm⟩
  obtain ⟨e, hs⟩ := Oblivious.cliMainAmid E S o₁ o₂ args _ _ _ hsim
  rw [h0, Proc.bind_of_ok h1']
  generalize cliMainAmid E S o₁ o₂ args (startWorld prog args fs) = q at e hs
  generalize hq' : cliMainAmid E S o₁ o₂ args w' = q' at e hs
  obtain ⟨r, t⟩ := q
  obtain ⟨r', t'⟩ := q'
  simp only at e hs
  subst e
  cases r' with
  | error x =>
    rw [Proc.bind_of_error hq']
    exact ⟨rfl, hs.fs⟩
  | ok u =>
    rw [Proc.bind_of_ok hq']
    have hv := verbose_cases t'.log (by rw [hs.log.level']; exact hs.log.valid') "done".toList "VERBOSE" (by decide)
    unfold onLog
    rw [hv]
    exact ⟨rfl, hs.fs⟩

theorem cliMainAmid_compress (E : Env μ) (S : Shown μ) (o₁ o₂ : FS → FS) {args : CliArgs} (h : Spec.IsCompress args) :
    cliMainAmid E S o₁ o₂ args = cliCompressAmid E o₁ o₂ args := by
  unfold cliMainAmid; unfold Spec.IsCompress at h; rw [if_pos h]

theorem cliMainAmid_decompress (E : Env μ) (S : Shown μ) (o₁ o₂ : FS → FS) {args : CliArgs} (h : Spec.IsDecompress args) :
    cliMainAmid E S o₁ o₂ args = cliDecompressAmid E S (fun fs => o₂ (o₁ fs)) args := by
  unfold cliMainAmid; unfold Spec.IsDecompress at h; rw [if_neg, if_pos h]
  rcases h with h | h <;> rw [h] <;> decide

/-- how `compress` can go on: the names are refused, the metadata cannot be read, or the file is packed -/
theorem cliCompressAmid_cases (E : Env μ) (o₁ o₂ : FS → FS) (args : CliArgs) (w : World) :
    (∃ msg, checkFiles w.fs args.in_file (compressionOut args) args.force = some msg ∧
      cliCompressAmid E o₁ o₂ args w = onLog (logError msg) w) ∨
    (∃ e, checkFiles w.fs args.in_file (compressionOut args) args.force = none ∧
      cliCompressAmid E o₁ o₂ args w = (.error e, { w with fs := o₁ w.fs })) ∨
    (∃ md, checkFiles w.fs args.in_file (compressionOut args) args.force = none ∧
      processMetadataArgs E args { w with fs := o₁ w.fs } = (.ok md, { w with fs := o₁ w.fs }) ∧
      cliCompressAmid E o₁ o₂ args w = compressHandler
        (packFileToFile E (o₂ (o₁ w.fs)) args.in_file (compressionOut args) args.chunk_size md args.blosc { offsets := args.offsets, checksum := args.checksum } {}).1
        { w with fs := (packFileToFile E (o₂ (o₁ w.fs)) args.in_file (compressionOut args) args.chunk_size md args.blosc
          { offsets := args.offsets, checksum := args.checksum } {}).2 }) := by
  have hm : ∀ w, (processMetadataArgs E args w).2 = w := by
    intro w
    unfold processMetadataArgs
    repeat' split
    all_goals rfl
  have h1 : ∀ (o : FS → FS) (w : World), meanwhile o w = (.ok (), { w with fs := o w.fs }) := fun _ _ => rfl
  unfold cliCompressAmid
  cases hc : checkFiles w.fs args.in_file (compressionOut args) args.force with
  | some msg => exact .inl ⟨msg, rfl, by rw [Proc.bind_of_error ((checkFilesOrExit_some hc).trans rfl)]; rfl⟩
  | none =>
    right
    rw [Proc.bind_of_ok (checkFilesOrExit_none hc), Proc.bind_of_ok (h1 _ _)]
    generalize hq : processMetadataArgs E args { w with fs := o₁ w.fs } = q
    obtain ⟨r, w'⟩ := q
    have h2 := hm { w with fs := o₁ w.fs }
    rw [hq] at h2
    simp only at h2
    subst h2
    cases r with
    | error e => exact .inl ⟨e, rfl, Proc.bind_of_error hq⟩
    | ok md =>
      refine .inr ⟨md, rfl, rfl, ?_⟩
      rw [Proc.bind_of_ok hq, Proc.bind_of_ok (h1 _ _)]
      rfl

theorem cliDecompressAmid_cases (E : Env μ) (S : Shown μ) (o : FS → FS) (args : CliArgs) (w : World) (out : String)
    (ho : decompressionOut args w.log = (.ok out, w.log)) :
    (∃ msg, checkFiles w.fs args.in_file out args.force = some msg ∧
      cliDecompressAmid E S o args w = onLog (logError msg) w) ∨
    (checkFiles w.fs args.in_file out args.force = none ∧
      cliDecompressAmid E S o args w = decompressHandler S (unpackFileFromFile E (o w.fs) args.in_file out).1
        { w with fs := (unpackFileFromFile E (o w.fs) args.in_file out).2 }) := by
  have h1 : onLog (decompressionOut args) w = (.ok out, w) := by
    unfold onLog; rw [ho]
  have h2 : ∀ w : World, meanwhile o w = (.ok (), { w with fs := o w.fs }) := fun _ => rfl
  unfold cliDecompressAmid
  cases hc : checkFiles w.fs args.in_file out args.force with
  | some msg => exact .inl ⟨msg, rfl, by rw [Proc.bind_of_ok h1, Proc.bind_of_error ((checkFilesOrExit_some hc).trans rfl)]; rfl⟩
  | none =>
    refine .inr ⟨rfl, ?_⟩
    rw [Proc.bind_of_ok h1, Proc.bind_of_ok (checkFilesOrExit_none hc), Proc.bind_of_ok (h2 _)]
    rfl

theorem packFileToFile_canWrite (E : Env μ) (fs : FS) (i o : String) (cs : ChunkSizeArg) (md : Option μ) (a : BloscArgs)
    (b : BloscpackArgs) (m : MetadataArgs) : (packFileToFile E fs i o cs md a b m).2.canWrite = fs.canWrite := by
  unfold packFileToFile FS.openWrite
  repeat' split
  all_goals first
    | rfl
    | (rename_i h; split at h <;> cases h <;> rfl)
    | (rename_i h _ _ _ _; split at h <;> cases h <;> rfl)
    | (rename_i h _ _ _; split at h <;> cases h <;> rfl)
    | (rename_i h _ _; split at h <;> cases h <;> rfl)
    | (rename_i h _ _ _ _ _; split at h <;> cases h <;> rfl)
    | (rename_i h _ _ _ _ _ _; split at h <;> cases h <;> rfl)
    | (rename_i h _ _ _ _ _ _ _; split at h <;> cases h <;> rfl)

theorem compress_canWrite (E : Env μ) (S : Shown μ) (prog : List Char) (args : CliArgs) (fs : FS) (hcmd : Spec.IsCompress args) :
    (blpk E S prog args fs).2.fs.canWrite = fs.canWrite := by
  rw [blpk_fs, cliMain_compress E S hcmd]
  have hfs : (startWorld prog args fs).fs = fs := rfl
  rcases cliCompress_cases E args (startWorld prog args fs) with ⟨msg, -, h⟩ | ⟨e, -, -, h⟩ | ⟨md, -, -, h⟩
  · rw [h]; rfl
  · rw [h]; rfl
  · rw [h, compressHandler_fs, hfs]
    exact packFileToFile_canWrite _ _ _ _ _ _ _ _ _

/-! ### C111 -/

/-- if nobody changes anything meanwhile it is the program of C35 -/
theorem C111_alone (E : Env μ) (S : Shown μ) (prog : List Char) (args : CliArgs) (fs : FS) :
    blpkAmid E S prog (fun fs => fs) (fun fs => fs) args fs = blpk E S prog args fs := by
  have h : cliMainAmid E S (fun fs => fs) (fun fs => fs) args = cliMain E S args := by
    unfold cliMainAmid cliMain
    split
    · rfl
    split
    · rfl
    · rfl
  unfold blpkAmid blpk blpkRun
  rw [h]

/-- C111: without `--force`, whatever other programs do between the steps of `compress` or `decompress`: a file that was there before, and
that nobody else changes, has the same contents afterwards. -/
theorem C111_kept_partial (E : Env μ) (S : Shown μ) (prog : List Char) (others₁ others₂ : FS → FS) (args : CliArgs) (fs : FS)
    (name : String) (content : Bytes) (hcmd : Spec.IsCompress args ∨ Spec.IsDecompress args) (hforce : args.force = false)
    (hfile : fs.files name = some content) (h₁ : (others₁ fs).files name = some content)
    (h₂ : (others₂ (others₁ fs)).files name = some content) :
    (blpkAmid E S prog others₁ others₂ args fs).2.fs.files name = some content := by
  rw [(blpkAmid_run E S prog others₁ others₂ args fs).2]
  have hfs : (startWorld prog args fs).fs = fs := rfl
  generalize startWorld prog args fs = w at hfs
  subst hfs
  have hex : w.fs.exists name = true := by unfold FS.exists; rw [hfile]; rfl
  rcases hcmd with hc | hd
  · rw [cliMainAmid_compress E S _ _ hc]
    rcases cliCompressAmid_cases E others₁ others₂ args w with ⟨msg, -, h⟩ | ⟨e, -, h⟩ | ⟨md, h0, -, h⟩
    · rw [h]; exact hfile
    · rw [h]; exact h₁
    · rw [h, compressHandler_fs]
      have hn : name ≠ compressionOut args := by
        intro hn
        rw [checkFiles_none_iff, ← hn, hex, hforce] at h0
        exact absurd (h0.2 rfl) (by decide)
      rw [← h₂]
      exact packFileToFile_frame _ _ _ _ _ _ _ _ _ name hn
  · rw [cliMainAmid_decompress E S _ _ hd]
    rcases decompressionOut_cases args with ⟨out, ho⟩ | ⟨msg, ho⟩
    · rcases cliDecompressAmid_cases E S (fun fs => others₂ (others₁ fs)) args w out (ho _) with ⟨msg, -, h⟩ | ⟨h0, h⟩
      · rw [h]; exact hfile
      · rw [h, decompressHandler_fs]
        have hn : name ≠ out := by
          intro hn
          rw [checkFiles_none_iff, ← hn, hex, hforce] at h0
          exact absurd (h0.2 rfl) (by decide)
        rw [← h₂]
        exact unpackFileFromFile_frame _ _ _ _ name hn
    · have : cliDecompressAmid E S (fun fs => others₂ (others₁ fs)) args w = onLog (logError msg) w := by
        unfold cliDecompressAmid
        rw [ho, Proc.bind_of_error (m := onLog (logError msg)) rfl]
        rfl
      rw [this]; exact hfile

/-- C111, violated: a file that another program creates under the name of the output, after `blpk compress` has found that there is none,
is lost, whatever it holds: the archive takes its place, and the tool reports success. -/
theorem C111_compress_violated (E : Env μ) (L : E.Laws) (S : Shown μ) (prog : List Char) (others₁ others₂ : FS → FS) (args : CliArgs) (fs : FS)
    (target : String) (data : Bytes) (hcmd : Spec.IsCompress args)
    (htarget : (args.out_file = none ∧ target = args.in_file ++ ".blp") ∨ (args.out_file = some target ∧ target ≠ ""))
    (hmd : args.metadata = none) (hin : (fs.files args.in_file).isSome) (hnew : fs.files target = none)
    (hdata : (others₂ (others₁ fs)).files args.in_file = some data) (hne : args.in_file ≠ target)
    (hw : (others₂ (others₁ fs)).canWrite target = true)
    (hgood : Spec.GoodSettings E data.length args.chunk_size args.blosc { offsets := args.offsets, checksum := args.checksum }) :
    (blpkAmid E S prog others₁ others₂ args fs).1 = .ok () ∧
    ∃ packed, (blpkAmid E S prog others₁ others₂ args fs).2.fs.files target = some packed ∧ unpackBytesFromBytes E packed = .ok (data, none) := by
  have ht : compressionOut args = target := by
    rcases htarget with ⟨h1, rfl⟩ | ⟨h1, h2⟩
    · exact (compressionOut_eq args).1 h1
    · exact (compressionOut_eq args).2 _ h1 h2
  obtain ⟨h1, h2⟩ := blpkAmid_run E S prog others₁ others₂ args fs
  rw [h1, h2, cliMainAmid_compress E S _ _ hcmd]
  have hfs : (startWorld prog args fs).fs = fs := rfl
  generalize startWorld prog args fs = w at hfs
  subst hfs
  have hchk : checkFiles w.fs args.in_file (compressionOut args) args.force = none := by
    rw [checkFiles_none_iff, ht]
    unfold FS.exists
    exact ⟨hin, fun hx => by rw [hnew] at hx; cases hx⟩
  have hp : ∀ w : World, processMetadataArgs E args w = (.ok none, w) := by
    intro w
    unfold processMetadataArgs
    rw [hmd]
  rcases cliCompressAmid_cases E others₁ others₂ args w with ⟨msg, h, -⟩ | ⟨e, -, h⟩ | ⟨md, -, h0, h⟩
  · rw [hchk] at h; cases h
  · exfalso
    have h3 : ∀ (o : FS → FS) (w : World), meanwhile o w = (.ok (), { w with fs := o w.fs }) := fun _ _ => rfl
    obtain ⟨out, g, -⟩ := C01_total E L data args.chunk_size none args.blosc _ {} hgood (.inl rfl)
    obtain ⟨g1, g2, -, -⟩ := C46_pack_agree E L _ args.in_file target data args.chunk_size none args.blosc
      { offsets := args.offsets, checksum := args.checksum } {} hdata hw hne
    obtain ⟨m', fs', g3, -⟩ := (g2 out).1 g
    unfold cliCompressAmid at h
    rw [Proc.bind_of_ok (checkFilesOrExit_none hchk), Proc.bind_of_ok (h3 _ _), Proc.bind_of_ok (hp _), Proc.bind_of_ok (h3 _ _)] at h
    unfold attempt onFS at h
    simp only [ht, g1, g3] at h
    cases h
  · rw [hp] at h0
    cases h0
    obtain ⟨out, g, g'⟩ := C01_total E L data args.chunk_size none args.blosc _ {} hgood (.inl rfl)
    obtain ⟨g1, g2, -, -⟩ := C46_pack_agree E L _ args.in_file target data args.chunk_size none args.blosc
      { offsets := args.offsets, checksum := args.checksum } {} hdata hw hne
    obtain ⟨m', fs', g3, g4⟩ := (g2 out).1 g
    rw [h, ht, g1, g3]
    exact ⟨rfl, out, g4, g'⟩

/-- C111, violated: the same for `blpk decompress`. -/
theorem C111_decompress_violated (E : Env μ) (S : Shown μ) (prog : List Char) (others₁ others₂ : FS → FS) (args : CliArgs) (fs : FS)
    (target : String) (data : Bytes) (md : Option μ) (hcmd : Spec.IsDecompress args)
    (htarget : (args.out_file = none ∧ args.in_file = target ++ ".blp" ∧ args.no_check_extension = false) ∨
      (args.out_file = some target ∧ target ≠ "" ∧ Spec.ExtensionFine args))
    (hin : (fs.files args.in_file).isSome) (hnew : fs.files target = none) (hne : args.in_file ≠ target)
    (hw : (others₂ (others₁ fs)).canWrite target = true)
    (hun : unpackBytesFromFile E (others₂ (others₁ fs)) args.in_file = .ok (data, md)) :
    (blpkAmid E S prog others₁ others₂ args fs).1 = .ok () ∧
    (blpkAmid E S prog others₁ others₂ args fs).2.fs.files target = some data := by
  have ht : ∀ s, decompressionOut args s = (.ok target, s) := by
    intro s
    rcases htarget with ⟨h1, h2, h3⟩ | ⟨h1, h2, h3⟩
    · exact (decompressionOut_eq args s).1 _ h2 h1 h3
    · exact (decompressionOut_eq args s).2 _ h1 h2 h3
  -- the same with `--force`, after the others
  have hforced := decompress_total E S prog { args with force := true } (others₂ (others₁ fs)) target data md hcmd htarget hne hw (.inr rfl) hun
  obtain ⟨packed, hpk⟩ : ∃ packed, (others₂ (others₁ fs)).files args.in_file = some packed := by
    cases hp : (others₂ (others₁ fs)).files args.in_file with
    | some packed => exact ⟨packed, rfl⟩
    | none =>
      unfold unpackBytesFromFile FS.openRead at hun
      rw [hp] at hun
      cases hun
  obtain ⟨h1, h2⟩ := blpkAmid_run E S prog others₁ others₂ args fs
  rw [h1, h2, cliMainAmid_decompress E S _ _ hcmd]
  rw [blpk_result, blpk_fs, cliMain_decompress E S (args := { args with force := true }) hcmd] at hforced
  have hsw : startWorld prog { args with force := true } (others₂ (others₁ fs)) = { startWorld prog args fs with fs := others₂ (others₁ fs) } := rfl
  rw [hsw] at hforced
  have hfs : (startWorld prog args fs).fs = fs := rfl
  generalize startWorld prog args fs = w at hfs hforced
  subst hfs
  rcases cliDecompressAmid_cases E S (fun fs => others₂ (others₁ fs)) args w target (ht _) with ⟨msg, h, -⟩ | ⟨-, h⟩
  · exfalso
    have : checkFiles w.fs args.in_file target args.force = none := by
      rw [checkFiles_none_iff]
      unfold FS.exists
      exact ⟨hin, fun hx => by rw [hnew] at hx; cases hx⟩
    rw [this] at h
    cases h
  · rcases cliDecompress_cases E S { args with force := true } { w with fs := others₂ (others₁ w.fs) } target (ht _) with ⟨msg, h', -⟩ | ⟨-, h'⟩
    · exfalso
      have : checkFiles (others₂ (others₁ w.fs)) args.in_file target true = none := by
        rw [checkFiles_none_iff]
        unfold FS.exists
        exact ⟨by rw [hpk]; rfl, fun _ => rfl⟩
      simp only at h'
      rw [this] at h'
      cases h'
    · rw [h'] at hforced
      rw [h]
      exact hforced

/-- C111, violated: two users compress different files to the same new file at the same time, without `--force`. Both are told that it worked;
what the first one to write has stored is lost. -/
theorem C111_two_violated (E : Env μ) (L : E.Laws) (S : Shown μ) (prog : List Char) (args args' : CliArgs) (fs : FS) (target : String)
    (x y : Bytes) (hcmd : Spec.IsCompress args) (hcmd' : Spec.IsCompress args') (hforce : args.force = false ∧ args'.force = false)
    (hout : args.out_file = some target) (hout' : args'.out_file = some target) (hmd : args.metadata = none) (hmd' : args'.metadata = none)
    (hx : fs.files args.in_file = some x) (hy : fs.files args'.in_file = some y) (hnew : fs.files target = none) (hname : target ≠ "")
    (hne : args.in_file ≠ target) (hne' : args'.in_file ≠ target) (hw : fs.canWrite target = true)
    (hgood : Spec.GoodSettings E x.length args.chunk_size args.blosc { offsets := args.offsets, checksum := args.checksum })
    (hgood' : Spec.GoodSettings E y.length args'.chunk_size args'.blosc { offsets := args'.offsets, checksum := args'.checksum }) :
    (∃ packed, (blpk E S prog args' fs).1 = .ok () ∧ (blpk E S prog args' fs).2.fs.files target = some packed ∧
      unpackBytesFromBytes E packed = .ok (y, none)) ∧
    (blpkAmid E S prog (fun fs => (blpk E S prog args' fs).2.fs) (fun fs => fs) args fs).1 = .ok () ∧
    ∃ packed, (blpkAmid E S prog (fun fs => (blpk E S prog args' fs).2.fs) (fun fs => fs) args fs).2.fs.files target = some packed ∧
      unpackBytesFromBytes E packed = .ok (x, none) := by
  have h1 := C111_compress_violated E L S prog (fun fs => fs) (fun fs => fs) args' fs target y hcmd' (.inr ⟨hout', hname⟩) hmd' (by rw [hy]; rfl) hnew hy
    hne' hw hgood'
  rw [C111_alone] at h1
  refine ⟨?_, ?_⟩
  · obtain ⟨a, packed, b, c⟩ := h1
    exact ⟨packed, a, b, c⟩
  · have hframe := (C34_compress E L S prog args' fs target hcmd' (.inr ⟨hout', hname⟩)).1
    exact C111_compress_violated E L S prog _ (fun fs => fs) args fs target x hcmd (.inr ⟨hout, hname⟩) hmd (by rw [hx]; rfl) hnew
      (by show (blpk E S prog args' fs).2.fs.files args.in_file = _; rw [hframe _ hne]; exact hx) hne
      (by show (blpk E S prog args' fs).2.fs.canWrite target = true; rw [compress_canWrite E S prog args' fs hcmd']; exact hw) hgood

/-- C111: if another program removes the input after it has been found, an exception ends the program; nothing changes. -/
theorem C111_input_gone (E : Env μ) (S : Shown μ) (prog : List Char) (others₁ others₂ : FS → FS) (args : CliArgs) (fs : FS) (target : String)
    (hcmd : Spec.IsCompress args)
    (htarget : (args.out_file = none ∧ target = args.in_file ++ ".blp") ∨ (args.out_file = some target ∧ target ≠ ""))
    (hmd : args.metadata = none) (hin : (fs.files args.in_file).isSome) (hnew : fs.files target = none ∨ args.force = true)
    (hgone : (others₂ (others₁ fs)).files args.in_file = none) :
    (blpkAmid E S prog others₁ others₂ args fs).1 = .error .osError ∧
    (blpkAmid E S prog others₁ others₂ args fs).2.fs = others₂ (others₁ fs) := by
  have ht : compressionOut args = target := by
    rcases htarget with ⟨h1, rfl⟩ | ⟨h1, h2⟩
    · exact (compressionOut_eq args).1 h1
    · exact (compressionOut_eq args).2 _ h1 h2
  obtain ⟨h1, h2⟩ := blpkAmid_run E S prog others₁ others₂ args fs
  rw [h1, h2, cliMainAmid_compress E S _ _ hcmd]
  have hfs : (startWorld prog args fs).fs = fs := rfl
  generalize startWorld prog args fs = w at hfs
  subst hfs
  have hchk : checkFiles w.fs args.in_file (compressionOut args) args.force = none := by
    rw [checkFiles_none_iff, ht]
    unfold FS.exists
    refine ⟨hin, fun hx => ?_⟩
    rcases hnew with hnew | hnew
    · rw [hnew] at hx; cases hx
    · exact hnew
  have hp : ∀ w : World, processMetadataArgs E args w = (.ok none, w) := by
    intro w
    unfold processMetadataArgs
    rw [hmd]
  have h3 : ∀ (o : FS → FS) (w : World), meanwhile o w = (.ok (), { w with fs := o w.fs }) := fun _ _ => rfl
  have hq : packFileToFile E (others₂ (others₁ w.fs)) args.in_file (compressionOut args) args.chunk_size none args.blosc
      { offsets := args.offsets, checksum := args.checksum } {} = (.error .osError, others₂ (others₁ w.fs)) := by
    unfold packFileToFile FS.getsize
    rw [hgone]
  unfold cliCompressAmid
  rw [Proc.bind_of_ok (checkFilesOrExit_none hchk), Proc.bind_of_ok (h3 _ _), Proc.bind_of_ok (hp _), Proc.bind_of_ok (h3 _ _)]
  unfold attempt onFS
  simp only [hq]
  exact ⟨rfl, rfl⟩

/-! ### examples -/

/-- two files are compressed to the same new file at the same time -/
example :
    let S : Shown Nat := { truthy := fun _ => true, pformat := fun _ => [] }
    let fs : FS := { files := fun n => if n = "x" then some [1, 2, 3] else if n = "y" then some [4, 5] else none }
    let a : CliArgs := { subcommand := some "c", in_file := "x", out_file := some "o", chunk_size := .int 2 }
    let b : CliArgs := { subcommand := some "c", in_file := "y", out_file := some "o", chunk_size := .int 2 }
    let r := blpkAmid Toy.env S "blpk".toList (fun fs => (blpk Toy.env S "blpk".toList b fs).2.fs) (fun fs => fs) a fs
    (r.1.toBool, (blpk Toy.env S "blpk".toList b fs).1.toBool, ((r.2.fs.files "o").bind fun d => (unpackBytesFromBytes Toy.env d).toOption)) =
      (true, true, some ([1, 2, 3], none)) := by
  decide +kernel

/-- a file that is there before is not overwritten -/
example :
    let S : Shown Nat := { truthy := fun _ => true, pformat := fun _ => [] }
    let fs : FS := { files := fun n => if n = "x" then some [1, 2, 3] else if n = "o" then some [4, 5] else none }
    let a : CliArgs := { subcommand := some "c", in_file := "x", out_file := some "o", chunk_size := .int 2 }
    let r := blpkAmid Toy.env S "blpk".toList (fun fs => fs.put "z" [7]) (fun fs => fs) a fs
    (r.1.toBool, r.2.fs.files "o") = (false, some [4, 5]) := by
  decide +kernel

end Bloscpack
