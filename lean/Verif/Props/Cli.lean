import Verif.Model.Cli
import Verif.Props.Log
import Verif.Props.RoundTrip
import Verif.Props.Damage
/-
C34, C35, C36, C49: the command line tool.
-/
namespace Bloscpack
variable {μ : Type}

/-! ### specification -/

/-- what the calling process sees: 0 after a normal end, the code given to `sys.exit`, 1 after any other exception -/
def Spec.exitCode : Except Err Unit → Int
  | .ok () => 0
  | .error (.systemExit c) => c
  | .error _ => 1

/-- the `compress` and `decompress` subcommands and their short names -/
def Spec.IsCompress (args : CliArgs) : Prop := args.subcommand = some "compress" ∨ args.subcommand = some "c"
def Spec.IsDecompress (args : CliArgs) : Prop := args.subcommand = some "decompress" ∨ args.subcommand = some "d"

/-- the two file systems have the same files with the same contents, except perhaps for `name` -/
def Spec.SameExcept (name : String) (fs fs' : FS) : Prop := ∀ x, x ≠ name → fs'.files x = fs.files x

/-- the input's extension is right, or the user asked not to check it -/
def Spec.ExtensionFine (args : CliArgs) : Prop := args.no_check_extension = true ∨ ∃ F : String, args.in_file = F ++ ".blp"

/-- these lines were printed, and without `-v` and `-d` nothing else: with them there may be lines before and after -/
def Spec.Printed (args : CliArgs) (out lines : List (List Char)) : Prop :=
  ∃ before after, out = before ++ lines ++ after ∧ (args.verbose = false → args.debug = false → before = [] ∧ after = [])

/-- one line or more was printed that starts with the program name and "error", and nothing after these lines; without `-v` and `-d`
nothing before them either -/
def Spec.ErrorPrinted (prog : List Char) (args : CliArgs) (out : List (List Char)) : Prop :=
  ∃ before errors, out = before ++ errors ∧ errors ≠ [] ∧ (∀ l ∈ errors, prog ++ ": error: ".toList <+: l) ∧
    (args.verbose = false → args.debug = false → before = [])

/-! ### auxiliary -/

theorem splitNL_mem {m : List Char} {c : Char} (h : c ∈ m) (hc : c ≠ '\n') : ∃ l ∈ splitNL m, c ∈ l := by
  obtain ⟨ls, h1, h2, rfl⟩ := C39_every_message m
  rw [splitNL_joined ls h1 h2]
  clear h2 h1
  induction ls with
  | nil => simp [Spec.joinedLines] at h
  | cons l ls ih =>
    cases ls with
    | nil => exact ⟨l, List.mem_cons_self, h⟩
    | cons l' ls =>
      rw [Spec.joinedLines, List.mem_append, List.mem_cons] at h
      rcases h with h | h | h
      · exact ⟨l, List.mem_cons_self, h⟩
      · exact absurd h hc
      · obtain ⟨x, h1, h2⟩ := ih h
        exact ⟨x, List.mem_cons_of_mem _ h1, h2⟩

theorem errorPrinted {prog msg : List Char} {c : Char} (h : c ∈ msg) (hc : c ≠ '\n') :
    (messageLines msg).map (errorLine prog) ≠ [] ∧ ∀ l ∈ (messageLines msg).map (errorLine prog), prog ++ ": error: ".toList <+: l := by
  refine ⟨?_, ?_⟩
  · obtain ⟨l, h1, h2⟩ := splitNL_mem h hc
    have : l ∈ messageLines msg := by
      unfold messageLines
      rw [List.mem_filter]
      refine ⟨h1, ?_⟩
      cases l with
      | nil => cases h2
      | cons a b => rfl
    intro hx
    rw [List.map_eq_nil_iff] at hx
    rw [hx] at this
    cases this
  · intro l hl
    obtain ⟨x, -, rfl⟩ := List.mem_map.1 hl
    exact ⟨x, rfl⟩

theorem ofList_append_ext (F : String) : String.ofList (F.toList ++ EXTENSION) = F ++ ".blp" := by
  apply String.ext
  simp [EXTENSION]

theorem endsWith_iff (s : String) : endsWith s.toList EXTENSION = true ↔ ∃ F : String, s = F ++ ".blp" := by
  unfold endsWith
  rw [beq_iff_eq]
  constructor
  · intro h
    refine ⟨String.ofList (s.toList.take (s.toList.length - EXTENSION.length)), ?_⟩
    rw [← ofList_append_ext, String.toList_ofList]
    conv => rhs; rhs; rhs; rw [← h]
    rw [List.take_append_drop, String.ofList_toList]
  · rintro ⟨F, rfl⟩
    rw [← ofList_append_ext, String.toList_ofList, List.length_append, Nat.add_sub_cancel, List.drop_left]

theorem strip_ext (F : String) :
    String.ofList ((F ++ ".blp").toList.take ((F ++ ".blp").toList.length - EXTENSION.length)) = F := by
  rw [← ofList_append_ext, String.toList_ofList, List.length_append, Nat.add_sub_cancel, List.take_left, String.ofList_toList]

theorem ext_ne (F : String) : F ++ ".blp" ≠ F := by
  intro h
  have := congrArg (fun s => s.toList.length) h
  simp at this

theorem openWrite_frame {fs fs1 : FS} {o : String} (h : fs.openWrite o = .ok fs1) : Spec.SameExcept o fs fs1 := by
  unfold FS.openWrite at h
  split at h
  · cases h; intro x hx; simp [FS.put, hx]
  · cases h

theorem put_frame {fs fs1 : FS} {o : String} (h : Spec.SameExcept o fs fs1) (d : Bytes) : Spec.SameExcept o fs (fs1.put o d) := by
  intro x hx
  rw [← h x hx]
  simp [FS.put, hx]

theorem packFileToFile_frame (E : Env μ) (fs : FS) (i o : String) (cs : ChunkSizeArg) (md : Option μ) (a : BloscArgs)
    (b : BloscpackArgs) (m : MetadataArgs) : Spec.SameExcept o fs (packFileToFile E fs i o cs md a b m).2 := by
  have hr : Spec.SameExcept o fs fs := fun _ _ => rfl
  unfold packFileToFile
  split
  · exact hr
  split
  · exact hr
  split
  · exact hr
  split
  · exact hr
  rename_i fs1 h1
  have h1 := openWrite_frame h1
  split
  · exact put_frame h1 _
  split <;> exact put_frame h1 _

theorem unpackFileFromFile_frame (E : Env μ) (fs : FS) (i o : String) :
    Spec.SameExcept o fs (unpackFileFromFile E fs i o).2 := by
  have hr : Spec.SameExcept o fs fs := fun _ _ => rfl
  unfold unpackFileFromFile
  split
  · exact hr
  split
  · exact hr
  split
  · exact hr
  rename_i fs1 h1
  have h1 := openWrite_frame h1
  split
  · exact put_frame h1 _
  split <;> exact put_frame h1 _

/-! ### the log does not influence what is done -/

/-- a message: printed or not -/
theorem verbose_cases (s : Log) (hs : s.level ∈ verbosityLevels) (message : List Char) (level : String) (hl : level ∈ verbosityLevels) :
    verbose message level s =
      (.ok (), { s with out := s.out ++ (if verbosityLevels.idxOf level ≤ verbosityLevels.idxOf s.level then
        (messageLines message).map (fun l => s.pfx ++ [':', ' '] ++ l) else []) }) := by
  unfold verbose
  simp only [bind, Proc.bind, Proc.get, hl, hs, not_true, if_false]
  split
  · rfl
  · simp [Proc.pure]

/-- prefix and levels of two logs, and the lines one of them has before those of the other -/
structure LogFrame where
  before : List (List Char)
  pfx : List Char
  level : String
  level' : String

/-- `l'` is `l` with other lines before and another level -/
structure LogSim (k : LogFrame) (l l' : Log) : Prop where
  pfx : l.pfx = k.pfx
  pfx' : l'.pfx = k.pfx
  level : l.level = k.level
  level' : l'.level = k.level'
  valid : k.level ∈ verbosityLevels
  valid' : k.level' ∈ verbosityLevels
  out : l'.out = k.before ++ l.out

/-- the two states differ in the log only, as above -/
structure WorldSim (k : LogFrame) (w w' : World) : Prop where
  fs : w'.fs = w.fs
  log : LogSim k w.log w'.log

/-- what `m` does and adds to the log does not depend on the lines already there and on the level -/
def Oblivious {σ α : Type} (R : LogFrame → σ → σ → Prop) (m : Proc σ α) : Prop :=
  ∀ k s s', R k s s' → (m s').1 = (m s).1 ∧ R k (m s).2 (m s').2

section
variable {σ α β : Type} {R : LogFrame → σ → σ → Prop}

theorem Oblivious.pure (a : α) : Oblivious R (Proc.pure a) := fun _ _ _ h => ⟨rfl, h⟩
theorem Oblivious.raise (e : Err) : Oblivious R (Proc.raise e : Proc σ α) := fun _ _ _ h => ⟨rfl, h⟩
theorem Oblivious.ofExcept (x : Except Err α) : Oblivious R (Proc.ofExcept x : Proc σ α) := by
  intro _ s s' h
  rw [Proc.ofExcept_apply, Proc.ofExcept_apply]
  exact ⟨rfl, h⟩

theorem Oblivious.bind {m : Proc σ α} {k : α → Proc σ β} (h1 : Oblivious R m) (h2 : ∀ a, Oblivious R (k a)) :
    Oblivious R (m >>= k) := by
  intro before s s' h
  obtain ⟨e, h'⟩ := h1 before s s' h
  generalize hq : m s = q at e h'
  generalize hq' : m s' = q' at e h'
  obtain ⟨r, t⟩ := q
  obtain ⟨r', t'⟩ := q'
  simp only at e h'
  subst e
  cases r' with
  | error x => rw [Proc.bind_of_error hq, Proc.bind_of_error hq']; exact ⟨rfl, h'⟩
  | ok a => rw [Proc.bind_of_ok hq, Proc.bind_of_ok hq']; exact h2 a before t t' h'
end

theorem Oblivious.normal (message : List Char) : Oblivious LogSim (normal message) := by
  intro before s s' h
  have e : ∀ t : Log, t.level ∈ verbosityLevels → Bloscpack.normal message t =
      (.ok (), { t with out := t.out ++ (messageLines message).map (fun l => t.pfx ++ [':', ' '] ++ l) }) := by
    intro t ht
    have h0 : verbosityLevels.idxOf "NORMAL" ≤ verbosityLevels.idxOf t.level := Nat.zero_le _
    rw [Bloscpack.normal, verbose_cases t ht message "NORMAL" (by decide), if_pos h0]
  rw [e s (h.level ▸ h.valid), e s' (h.level' ▸ h.valid')]
  refine ⟨rfl, h.pfx, h.pfx', h.level, h.level', h.valid, h.valid', ?_⟩
  simp only [h.out, h.pfx, h.pfx', List.append_assoc]

theorem Oblivious.logError {α : Type} (message : List Char) (c : Int) : Oblivious LogSim (logError (α := α) message c) := by
  intro before s s' h
  refine ⟨rfl, h.pfx, h.pfx', h.level, h.level', h.valid, h.valid', ?_⟩
  show s'.out ++ _ = before.before ++ (s.out ++ _)
  rw [h.out, h.pfx, h.pfx', List.append_assoc]

theorem Oblivious.onLog {α : Type} {m : Proc Log α} (h : Oblivious LogSim m) : Oblivious WorldSim (onLog m) := by
  intro before w w' hw
  obtain ⟨e, h'⟩ := h before _ _ hw.log
  exact ⟨e, hw.fs, h'⟩

theorem Oblivious.onFS {α : Type} (m : FS → Except Err α × FS) : Oblivious WorldSim (onFS m) := by
  intro before w w' hw
  unfold Bloscpack.onFS
  rw [hw.fs]
  exact ⟨rfl, rfl, hw.log⟩

theorem Oblivious.attempt {α β : Type} {m : Proc World α} {k : Except Err α → Proc World β} (h1 : Oblivious WorldSim m)
    (h2 : ∀ r, Oblivious WorldSim (k r)) : Oblivious WorldSim (attempt m k) := by
  intro before w w' hw
  obtain ⟨e, h'⟩ := h1 before w w' hw
  unfold Bloscpack.attempt
  rw [e]
  exact h2 _ before _ _ h'

theorem Oblivious.checkFilesOrExit (i o : String) (force : Bool) : Oblivious WorldSim (checkFilesOrExit i o force) := by
  intro before w w' hw
  unfold Bloscpack.checkFilesOrExit
  rw [hw.fs]
  split
  · exact (Oblivious.logError _ _).onLog before w w' hw
  · exact ⟨rfl, hw⟩

theorem Oblivious.requireFile (what name : String) : Oblivious WorldSim (requireFile what name) := by
  intro before w w' hw
  unfold Bloscpack.requireFile
  rw [hw.fs]
  split
  · exact ⟨rfl, hw⟩
  · exact (Oblivious.logError _ _).onLog before w w' hw

theorem Oblivious.processMetadataArgs (E : Env μ) (args : CliArgs) : Oblivious WorldSim (processMetadataArgs E args) := by
  intro before w w' hw
  unfold Bloscpack.processMetadataArgs
  rw [hw.fs]
  repeat' split
  all_goals exact ⟨rfl, hw⟩

theorem Oblivious.logMetadata (S : Shown μ) (md : Option μ) : Oblivious LogSim (logMetadata S md) :=
  .bind (.normal _) fun _ => .normal _

theorem Oblivious.cliCompress (E : Env μ) (args : CliArgs) : Oblivious WorldSim (cliCompress E args) := by
  refine .bind (.checkFilesOrExit _ _ _) fun _ => .bind (.processMetadataArgs E args) fun _ => .attempt (.onFS _) fun r => ?_
  unfold compressHandler
  split
  · exact .pure _
  · exact (Oblivious.logError _ _).onLog
  · exact .raise _

theorem Oblivious.cliDecompress (E : Env μ) (S : Shown μ) (args : CliArgs) : Oblivious WorldSim (cliDecompress E S args) := by
  refine .bind (.onLog ?_) fun _ => .bind (.checkFilesOrExit _ _ _) fun _ => .attempt (.onFS _) fun r => ?_
  · unfold decompressionOut
    repeat' split
    · exact .logError _ _
    · exact .pure _
    · exact .pure _
    · exact .logError _ _
  · unfold decompressHandler
    repeat' split
    · exact .pure _
    · exact (Oblivious.logMetadata S _).onLog
    · exact .pure _
    · exact .raise _
    · exact .raise _
    · exact .raise _

theorem Oblivious.cliAppend (E : Env μ) (args : CliArgs) : Oblivious WorldSim (cliAppend E args) := by
  refine .bind (.onLog ?_) fun _ => .bind (.requireFile _ _) fun _ => .bind (.requireFile _ _) fun _ =>
    .bind (.processMetadataArgs E args) fun _ => .bind (.onFS _) fun _ => .onFS _
  unfold processAppendArgs
  split
  · exact .logError _ _
  · exact .pure _

theorem Oblivious.infoPrint (S : Shown μ) (r : InfoRead μ) : Oblivious LogSim (infoPrint S r) := by
  refine .bind (.normal _) fun _ => .bind ?_ fun _ => .bind ?_ fun _ => .bind (.normal _) fun _ => .bind (.normal _) fun _ =>
    .bind (.normal _) fun _ => .bind (.ofExcept _) fun _ => .normal _
  · split
    · exact .bind (.normal _) fun _ => .normal _
    · exact .pure _
  · split
    · exact .pure _
    · refine .bind (.logMetadata S _) fun _ => ?_
      split
      · exact .raise _
      · exact .normal _

theorem Oblivious.cliInfo (E : Env μ) (S : Shown μ) (args : CliArgs) : Oblivious WorldSim (cliInfo E S args) := by
  refine .bind (.requireFile _ _) fun _ => .attempt (.onFS _) fun r => ?_
  unfold infoHandler
  split
  · exact (Oblivious.infoPrint S _).onLog
  · split
    · exact (Oblivious.logError _ _).onLog
    · exact .raise _

theorem Oblivious.cliMain (E : Env μ) (S : Shown μ) (args : CliArgs) : Oblivious WorldSim (cliMain E S args) := by
  unfold Bloscpack.cliMain
  repeat' split
  · exact .cliCompress E args
  · exact .cliDecompress E S args
  · exact .cliAppend E args
  · exact .cliInfo E S args
  · exact (Oblivious.logError _ _).onLog

/-- the state `main` has set up before looking at the subcommand, without the messages given until then -/
def startWorld (prog : List Char) (args : CliArgs) (fs : FS) : World :=
  { fs := fs, log := { level := if args.verbose then "VERBOSE" else if args.debug then "DEBUG" else "NORMAL", pfx := prog } }

theorem startWorld_level (prog : List Char) (args : CliArgs) (fs : FS) :
    (startWorld prog args fs).log.level ∈ verbosityLevels := by
  unfold startWorld
  cases args.verbose <;> cases args.debug
  · show "NORMAL" ∈ verbosityLevels; decide
  · show "DEBUG" ∈ verbosityLevels; decide
  · show "VERBOSE" ∈ verbosityLevels; decide
  · show "VERBOSE" ∈ verbosityLevels; decide

/-- the messages before anything else is printed: printed or not, depending on the level -/
theorem chatter_run : ∀ (ms : List (Bool × List Char)) (s : Log), s.level ∈ verbosityLevels →
    ∃ lines, chatter ms s = (.ok (), { s with out := s.out ++ lines }) ∧ (s.level = "NORMAL" → lines = [])
  | [], s, _ => ⟨[], by simp [chatter, Proc.pure], fun _ => rfl⟩
  | (d, m) :: ms, s, hs => by
    have hl : (if d then "DEBUG" else "VERBOSE") ∈ verbosityLevels := by cases d <;> decide
    have h := verbose_cases s hs m _ hl
    generalize hls : (if verbosityLevels.idxOf (if d then "DEBUG" else "VERBOSE") ≤ verbosityLevels.idxOf s.level then
        (messageLines m).map (fun l => s.pfx ++ [':', ' '] ++ l) else []) = ls at h
    obtain ⟨lines, h1, h2⟩ := chatter_run ms { s with out := s.out ++ ls } hs
    refine ⟨ls ++ lines, ?_, ?_⟩
    · rw [chatter, Proc.bind_of_ok h, h1]
      simp
    · intro hn
      rw [h2 hn, List.append_nil, ← hls, if_neg]
      rw [hn]
      cases d <;> decide

/-- The tool does what the subcommand does, without the messages of higher levels; it prints the same lines, with other lines
before and, after success, the message `done` if the level asks for it. -/
theorem blpk_run (E : Env μ) (S : Shown μ) (prog : List Char) (args : CliArgs) (fs : FS) (w : World) (hfs : w.fs = fs)
    (hpfx : w.log.pfx = prog) (hlev : w.log.level ∈ verbosityLevels) (hout : w.log.out = []) :
    (blpk E S prog args fs).1 = (cliMain E S args w).1 ∧ (blpk E S prog args fs).2.fs = (cliMain E S args w).2.fs ∧
    ∃ before, (blpk E S prog args fs).2.log.out = before ++ (cliMain E S args w).2.log.out ++
        (if (cliMain E S args w).1 = .ok () ∧ (args.verbose = true ∨ args.debug = true) then [prog ++ ": done".toList] else []) ∧
      (args.verbose = false → args.debug = false → before = []) := by
  have h0 : blpk E S prog args fs = (do
      onLog (chatter (S.chat args fs))
      cliMain E S args
      onLog (verbose "done".toList) : Proc World Unit) (startWorld prog args fs) := by
    unfold blpk blpkRun setVerbosity startWorld
    cases hv : args.verbose <;> cases hd : args.debug <;> rfl
  obtain ⟨lines, h1, h2⟩ := chatter_run (S.chat args fs) (startWorld prog args fs).log (startWorld_level prog args fs)
  have h1' : onLog (chatter (S.chat args fs)) (startWorld prog args fs) =
      (.ok (), { startWorld prog args fs with log := { (startWorld prog args fs).log with out := lines } }) := by
    unfold onLog
    rw [h1]
    rfl
  generalize hw' : ({ startWorld prog args fs with log := { (startWorld prog args fs).log with out := lines } } : World) = w' at h1'
  have hlevel : w'.log.level = (startWorld prog args fs).log.level := by rw [← hw']
  have hsim : WorldSim ⟨lines, prog, w.log.level, w'.log.level⟩ w w' :=
    ⟨by rw [← hw']; exact hfs.symm, hpfx, by rw [← hw']; rfl, rfl, rfl, hlev, by rw [hlevel]; exact startWorld_level prog args fs,
      by rw [hout, ← hw', List.append_nil]⟩
  obtain ⟨e, hs⟩ := Oblivious.cliMain E S args _ _ _ hsim
  have hbefore : args.verbose = false → args.debug = false → lines = [] := by
    intro hv hd
    exact h2 (by simp [startWorld, hv, hd])
  rw [h0, Proc.bind_of_ok h1']
  generalize hq : cliMain E S args w = q at e hs
  generalize hq' : cliMain E S args w' = q' at e hs
  obtain ⟨r, t⟩ := q
  obtain ⟨r', t'⟩ := q'
  simp only at e hs
  subst e
  cases r' with
  | error x =>
    rw [Proc.bind_of_error hq']
    refine ⟨rfl, hs.fs, lines, ?_, hbefore⟩
    rw [if_neg (by rintro ⟨h, -⟩; cases h), List.append_nil]
    exact hs.log.out
  | ok u =>
    rw [Proc.bind_of_ok hq']
    have hv := verbose_cases t'.log (by rw [hs.log.level']; exact hs.log.valid') "done".toList "VERBOSE" (by decide)
    unfold onLog
    rw [hv]
    refine ⟨rfl, hs.fs, lines, ?_, hbefore⟩
    simp only
    rw [hs.log.out]
    have hl : t'.log.level = (startWorld prog args fs).log.level := by rw [hs.log.level']; exact hlevel
    have hp : t'.log.pfx = prog := hs.log.pfx'
    rw [hl, hp]
    have hd : (messageLines "done".toList).map (fun l => prog ++ [':', ' '] ++ l) = [prog ++ ": done".toList] := by
      rw [show messageLines "done".toList = ["done".toList] by decide]
      simp
    rw [hd]
    congr 1
    unfold startWorld
    cases args.verbose <;> cases args.debug <;> simp <;> decide

theorem blpk_result (E : Env μ) (S : Shown μ) (prog : List Char) (args : CliArgs) (fs : FS) :
    (blpk E S prog args fs).1 = (cliMain E S args (startWorld prog args fs)).1 :=
  (blpk_run E S prog args fs _ rfl rfl (startWorld_level prog args fs) rfl).1

theorem blpk_fs (E : Env μ) (S : Shown μ) (prog : List Char) (args : CliArgs) (fs : FS) :
    (blpk E S prog args fs).2.fs = (cliMain E S args (startWorld prog args fs)).2.fs :=
  (blpk_run E S prog args fs _ rfl rfl (startWorld_level prog args fs) rfl).2.1

theorem blpk_printed (E : Env μ) (S : Shown μ) (prog : List Char) (args : CliArgs) (fs : FS) {lines : List (List Char)}
    (h : (cliMain E S args (startWorld prog args fs)).2.log.out = lines) : Spec.Printed args (blpk E S prog args fs).2.log.out lines := by
  obtain ⟨before, h1, h2⟩ := (blpk_run E S prog args fs _ rfl rfl (startWorld_level prog args fs) rfl).2.2
  refine ⟨before, _, by rw [h1, h], fun hv hd => ⟨h2 hv hd, ?_⟩⟩
  rw [if_neg]
  rintro ⟨-, h | h⟩
  · rw [hv] at h; cases h
  · rw [hd] at h; cases h

theorem blpk_errorPrinted (E : Env μ) (S : Shown μ) (prog : List Char) (args : CliArgs) (fs : FS) {msg : List Char} {c : Char} {e : Err}
    (hr : (cliMain E S args (startWorld prog args fs)).1 = .error e)
    (ho : (cliMain E S args (startWorld prog args fs)).2.log.out = (messageLines msg).map (errorLine prog)) (h : c ∈ msg) (hc : c ≠ '\n') :
    Spec.ErrorPrinted prog args (blpk E S prog args fs).2.log.out := by
  obtain ⟨before, h1, h2⟩ := (blpk_run E S prog args fs _ rfl rfl (startWorld_level prog args fs) rfl).2.2
  obtain ⟨h3, h4⟩ := errorPrinted (prog := prog) h hc
  refine ⟨before, _, ?_, h3, h4, h2⟩
  rw [h1, ho, if_neg, List.append_nil]
  rintro ⟨h, -⟩
  rw [hr] at h
  cases h

theorem cliMain_compress (E : Env μ) (S : Shown μ) {args : CliArgs} (h : Spec.IsCompress args) :
    cliMain E S args = cliCompress E args := by
  unfold cliMain; unfold Spec.IsCompress at h; rw [if_pos h]

theorem cliMain_decompress (E : Env μ) (S : Shown μ) {args : CliArgs} (h : Spec.IsDecompress args) :
    cliMain E S args = cliDecompress E S args := by
  unfold cliMain
  unfold Spec.IsDecompress at h
  rw [if_neg, if_pos h]
  rintro (h' | h') <;> rcases h with h | h <;> rw [h] at h' <;> revert h' <;> decide

theorem checkFilesOrExit_some {w : World} {i o : String} {force : Bool} {msg : List Char} (h : checkFiles w.fs i o force = some msg) :
    checkFilesOrExit i o force w = onLog (logError msg) w := by
  unfold checkFilesOrExit; rw [h]

theorem checkFilesOrExit_none {w : World} {i o : String} {force : Bool} (h : checkFiles w.fs i o force = none) :
    checkFilesOrExit i o force w = (.ok (), w) := by
  unfold checkFilesOrExit; rw [h]

theorem checkFiles_none_iff (fs : FS) (i o : String) (force : Bool) :
    checkFiles fs i o force = none ↔ fs.exists i = true ∧ (fs.exists o = true → force = true) := by
  unfold checkFiles
  cases fs.exists i <;> cases fs.exists o <;> cases force <;> simp

theorem checkFiles_message {fs : FS} {i o : String} {force : Bool} {msg : List Char} (h : checkFiles fs i o force = some msg) :
    ∃ c ∈ msg, c ≠ '\n' := by
  unfold checkFiles at h
  split at h
  · cases h; exact ⟨'i', by simp, by decide⟩
  · split at h
    · cases h; exact ⟨'o', by simp, by decide⟩
    · cases h

theorem compressHandler_fs (r : Except Err MetadataArgs) (w : World) : (compressHandler r w).2.fs = w.fs := by
  unfold compressHandler; split <;> rfl

theorem verbose_ok {s : Log} (hs : s.level ∈ verbosityLevels) (m : List Char) (level : String) (hl : level ∈ verbosityLevels) :
    (verbose m level s).1 = .ok () ∧ (verbose m level s).2.level = s.level := by
  unfold verbose
  simp only [bind, Proc.bind, Proc.get, hl, hs, not_true, if_false]
  split <;> exact ⟨rfl, rfl⟩

theorem logMetadata_ok (S : Shown μ) (md : Option μ) {s : Log} (hs : s.level ∈ verbosityLevels) :
    (logMetadata S md s).1 = .ok () := by
  have h1 := verbose_ok hs "Metadata:".toList "NORMAL" (by decide)
  unfold logMetadata normal
  obtain ⟨h1, h2⟩ := h1
  generalize hq : verbose "Metadata:".toList "NORMAL" s = q at h1 h2
  obtain ⟨r, s'⟩ := q
  simp only at h1 h2
  subst h1
  rw [Proc.bind_of_ok hq]
  exact (verbose_ok (by rw [h2]; exact hs) _ _ (by decide)).1

theorem decompressHandler_fs (S : Shown μ) (r : Except Err (Option μ)) (w : World) :
    (decompressHandler S r w).2.fs = w.fs := by
  unfold decompressHandler
  repeat' split
  all_goals rfl

/-- `compress`, in cases: a message about the files, metadata that cannot be read, or packing -/
theorem cliCompress_cases (E : Env μ) (args : CliArgs) (w : World) :
    (∃ msg, checkFiles w.fs args.in_file (compressionOut args) args.force = some msg ∧
      cliCompress E args w = onLog (logError msg) w) ∨
    (∃ e, checkFiles w.fs args.in_file (compressionOut args) args.force = none ∧
      processMetadataArgs E args w = (.error e, w) ∧ cliCompress E args w = (.error e, w)) ∨
    (∃ md, checkFiles w.fs args.in_file (compressionOut args) args.force = none ∧
      processMetadataArgs E args w = (.ok md, w) ∧
      cliCompress E args w = compressHandler
        (packFileToFile E w.fs args.in_file (compressionOut args) args.chunk_size md args.blosc { offsets := args.offsets, checksum := args.checksum } {}).1
        { w with fs := (packFileToFile E w.fs args.in_file (compressionOut args) args.chunk_size md args.blosc { offsets := args.offsets, checksum := args.checksum } {}).2 }) := by
  have hm : (processMetadataArgs E args w).2 = w := by
    unfold processMetadataArgs
    repeat' split
    all_goals rfl
  cases hc : checkFiles w.fs args.in_file (compressionOut args) args.force with
  | some msg =>
    left
    refine ⟨msg, rfl, ?_⟩
    unfold cliCompress
    rw [Proc.bind_of_error ((checkFilesOrExit_some hc).trans rfl)]
    rfl
  | none =>
    right
    generalize hq : processMetadataArgs E args w = q at hm
    obtain ⟨r, w'⟩ := q
    simp only at hm
    subst hm
    cases r with
    | error e =>
      left
      refine ⟨e, rfl, rfl, ?_⟩
      unfold cliCompress
      rw [Proc.bind_of_ok (checkFilesOrExit_none hc), Proc.bind_of_error hq]
    | ok md =>
      right
      refine ⟨md, rfl, rfl, ?_⟩
      unfold cliCompress
      rw [Proc.bind_of_ok (checkFilesOrExit_none hc), Proc.bind_of_ok hq]
      rfl

/-- `decompress` with an output name, in cases -/
theorem cliDecompress_cases (E : Env μ) (S : Shown μ) (args : CliArgs) (w : World) (out : String)
    (ho : decompressionOut args w.log = (.ok out, w.log)) :
    (∃ msg, checkFiles w.fs args.in_file out args.force = some msg ∧
      cliDecompress E S args w = onLog (logError msg) w) ∨
    (checkFiles w.fs args.in_file out args.force = none ∧
      cliDecompress E S args w = decompressHandler S (unpackFileFromFile E w.fs args.in_file out).1
        { w with fs := (unpackFileFromFile E w.fs args.in_file out).2 }) := by
  have h1 : onLog (decompressionOut args) w = (.ok out, w) := by
    unfold onLog; rw [ho]
  cases hc : checkFiles w.fs args.in_file out args.force with
  | some msg =>
    left
    refine ⟨msg, rfl, ?_⟩
    unfold cliDecompress
    rw [Proc.bind_of_ok h1, Proc.bind_of_error ((checkFilesOrExit_some hc).trans rfl)]
    rfl
  | none =>
    right
    refine ⟨rfl, ?_⟩
    unfold cliDecompress
    rw [Proc.bind_of_ok h1, Proc.bind_of_ok (checkFilesOrExit_none hc)]
    rfl

/-- `decompress` either has an output name or has printed an error -/
theorem decompressionOut_cases (args : CliArgs) :
    (∃ out, ∀ s, decompressionOut args s = (.ok out, s)) ∨
    (∃ msg, decompressionOut args = logError msg) := by
  unfold decompressionOut
  split
  · generalize args.out_file = o
    cases o
    · exact .inr ⟨_, rfl⟩
    · exact .inl ⟨_, fun _ => rfl⟩
  · split
    · exact .inl ⟨_, fun _ => rfl⟩
    · exact .inr ⟨_, rfl⟩

theorem cliDecompress_refused (E : Env μ) (S : Shown μ) (args : CliArgs) (w : World) (msg : List Char)
    (ho : decompressionOut args = logError msg) : cliDecompress E S args w = onLog (logError msg) w := by
  unfold cliDecompress
  rw [ho, Proc.bind_of_error (m := onLog (logError msg)) rfl]
  rfl

theorem compress_frame (E : Env μ) (args : CliArgs) (w : World) :
    Spec.SameExcept (compressionOut args) w.fs (cliCompress E args w).2.fs := by
  rcases cliCompress_cases E args w with ⟨msg, -, h⟩ | ⟨e, -, -, h⟩ | ⟨md, -, -, h⟩
  · rw [h]; exact fun _ _ => rfl
  · rw [h]; exact fun _ _ => rfl
  · rw [h, compressHandler_fs]; exact packFileToFile_frame _ _ _ _ _ _ _ _ _

theorem decompress_frame (E : Env μ) (S : Shown μ) (args : CliArgs) (w : World) (out : String)
    (ho : decompressionOut args w.log = (.ok out, w.log)) :
    Spec.SameExcept out w.fs (cliDecompress E S args w).2.fs := by
  rcases cliDecompress_cases E S args w out ho with ⟨msg, -, h⟩ | ⟨-, h⟩
  · rw [h]; exact fun _ _ => rfl
  · rw [h, decompressHandler_fs]; exact unpackFileFromFile_frame _ _ _ _

/-! ### C35 -/

/-- C35: without `--force`, whatever the files, the options and the outcome, every file that existed before `compress` or
`decompress` has the same contents afterwards. -/
theorem C35_no_overwrite (E : Env μ) (S : Shown μ) (prog : List Char) (args : CliArgs) (fs : FS) (name : String) (content : Bytes)
    (hcmd : Spec.IsCompress args ∨ Spec.IsDecompress args) (hforce : args.force = false) (hfile : fs.files name = some content) :
    (blpk E S prog args fs).2.fs.files name = some content := by
  rw [blpk_fs]
  have hfs : (startWorld prog args fs).fs = fs := rfl
  generalize startWorld prog args fs = w at hfs
  subst hfs
  have hex : w.fs.exists name = true := by unfold FS.exists; rw [hfile]; rfl
  rcases hcmd with hc | hd
  · rw [cliMain_compress E S hc]
    by_cases hn : name = compressionOut args
    · rcases cliCompress_cases E args w with ⟨msg, -, h⟩ | ⟨e, -, -, h⟩ | ⟨md, h0, -, h⟩
      · rw [h]; exact hfile
      · rw [h]; exact hfile
      · rw [checkFiles_none_iff, ← hn, hex, hforce] at h0
        exact absurd (h0.2 rfl) (by decide)
    · rw [compress_frame E args w name hn]; exact hfile
  · rw [cliMain_decompress E S hd]
    rcases decompressionOut_cases args with ⟨out, ho⟩ | ⟨msg, ho⟩
    · by_cases hn : name = out
      · rcases cliDecompress_cases E S args w out (ho _) with ⟨msg, -, h⟩ | ⟨h0, h⟩
        · rw [h]; exact hfile
        · rw [checkFiles_none_iff, ← hn, hex, hforce] at h0
          exact absurd (h0.2 rfl) (by decide)
      · rw [decompress_frame E S args w out (ho _) name hn]; exact hfile
    · rw [cliDecompress_refused E S args w msg ho]; exact hfile

/-! ### C34 -/

theorem packFileToFile_ok {E : Env μ} (L : E.Laws) {fs : FS} {i o : String} {cs : ChunkSizeArg} {md : Option μ} {a : BloscArgs}
    {b : BloscpackArgs} {m m' : MetadataArgs} (hio : i ≠ o) (h : (packFileToFile E fs i o cs md a b m).1 = .ok m') :
    ∃ data packed, fs.files i = some data ∧ (packFileToFile E fs i o cs md a b m).2.files o = some packed ∧
      packBytesToBytes E data cs md a b m = .ok packed := by
  cases hi : fs.files i with
  | none =>
    unfold packFileToFile FS.getsize at h
    rw [hi] at h
    cases h
  | some data =>
    cases hw : fs.canWrite o with
    | false =>
      unfold packFileToFile FS.getsize FS.openRead FS.openWrite at h
      rw [hi, hw] at h
      simp only at h
      split at h <;> cases h
    | true =>
      have h1 := packFileToFile_eq E cs md a b m hi hw hio
      rw [h1] at h ⊢
      rw [packBytesToFile_eq E L fs data o cs md a b m hw] at h ⊢
      have h3 := packBytesToBytes_eq E data cs md a b m
      have hok := @packBytes_ok μ E L data cs md a b m
      generalize packBytes E data cs md a b m = q at h h3 hok ⊢
      obtain ⟨r, out⟩ := q
      cases out with
      | none =>
        simp only at h
        subst h
        obtain ⟨fp, -, -, -, -, hx, -⟩ := hok rfl
        cases hx
      | some fp =>
        simp only at h
        subst h
        obtain ⟨fp', -, -, -, -, hx, -, -, -, -, -, -, -, -, -, hp⟩ := hok rfl
        cases hx
        simp only [if_neg hp] at h3
        exact ⟨data, fp.data, rfl, by simp [FS.put], h3⟩

/-- unpacking a file to itself fails -/
theorem unpackFileFromFile_self (E : Env μ) (fs : FS) (i : String) : ∃ e fs', unpackFileFromFile E fs i i = (.error e, fs') := by
  have h0 : unpackFrom E [] = (.error .valueError, []) := by
    unfold unpackFrom unpackFP
    have : readBeginning E { data := [] } = (.error .valueError, { data := [] }) := rfl
    rw [this]
  unfold unpackFileFromFile FS.openWrite
  split
  · exact ⟨_, _, rfl⟩
  split
  · exact ⟨_, _, rfl⟩
  split
  · exact ⟨_, _, rfl⟩
  · rename_i h
    split at h
    · cases h
      rw [current_put_self, h0]
      exact ⟨_, _, rfl⟩
    · cases h

theorem unpackFileFromFile_ok {E : Env μ} {fs : FS} {i o : String} {md : Option μ}
    (h : (unpackFileFromFile E fs i o).1 = .ok md) :
    ∃ packed data, fs.files i = some packed ∧ (unpackFileFromFile E fs i o).2.files o = some data ∧
      unpackBytesFromBytes E packed = .ok (data, md) := by
  cases hi : fs.files i with
  | none =>
    unfold unpackFileFromFile FS.getsize at h
    rw [hi] at h
    cases h
  | some packed =>
    cases hw : fs.canWrite o with
    | false =>
      unfold unpackFileFromFile FS.getsize FS.openRead FS.openWrite at h
      rw [hi, hw] at h
      cases h
    | true =>
      refine ⟨packed, ?_⟩
      have hio : i ≠ o := by
        rintro rfl
        obtain ⟨e, fs', hx⟩ := unpackFileFromFile_self E fs i
        rw [hx] at h
        cases h
      obtain ⟨h1, -⟩ := C46_unpack_files E fs i o packed hi hw hio
      generalize hq : unpackFileFromFile E fs i o = q at h h1 ⊢
      obtain ⟨r, fs'⟩ := q
      simp only at h
      subst h
      have hu : ∃ data, fs'.files o = some data := by
        unfold unpackFileFromFile FS.getsize FS.openRead FS.openWrite at hq
        rw [hi] at hq
        simp only [hw, if_true, current_put_ne hio hi] at hq
        generalize unpackFrom E packed = q at hq
        obtain ⟨r, out⟩ := q
        cases r with
        | error e => cases hq
        | ok md' =>
          simp only at hq
          split at hq
          · cases hq
          · cases hq
            exact ⟨out, by simp [FS.put]⟩
      obtain ⟨data, hu⟩ := hu
      have h2 := (h1 data md).2 ⟨fs', rfl, hu⟩
      exact ⟨data, rfl, hu, C46_unpack_memory E fs i packed hi _ h2⟩

theorem compress_writes_md (E : Env μ) (L : E.Laws) (args : CliArgs) (w : World) (hok : (cliCompress E args w).1 = .ok ())
    (hio : args.in_file ≠ compressionOut args) :
    ∃ data packed md, w.fs.files args.in_file = some data ∧
      (cliCompress E args w).2.fs.files (compressionOut args) = some packed ∧
      ((args.metadata = none → md = none) ∧ ∀ name, args.metadata = some name →
        ∃ content, w.fs.files name = some content ∧ E.loads (stripBytes content) = .ok md) ∧
      packBytesToBytes E data args.chunk_size md args.blosc { offsets := args.offsets, checksum := args.checksum } {} = .ok packed := by
  rcases cliCompress_cases E args w with ⟨msg, -, h⟩ | ⟨e, -, -, h⟩ | ⟨md, -, hp, h⟩
  · rw [h] at hok; cases hok
  · rw [h] at hok; cases hok
  · rw [h] at hok
    rw [h, compressHandler_fs]
    have : ∃ m', (packFileToFile E w.fs args.in_file (compressionOut args) args.chunk_size md args.blosc { offsets := args.offsets, checksum := args.checksum } {}).1 = .ok m' := by
      generalize (packFileToFile E w.fs args.in_file (compressionOut args) args.chunk_size md args.blosc { offsets := args.offsets, checksum := args.checksum } {}).1 = r at hok
      unfold compressHandler at hok
      split at hok
      · exact ⟨_, rfl⟩
      · cases hok
      · cases hok
    obtain ⟨m', hm'⟩ := this
    obtain ⟨data, packed, h1, h2, h3⟩ := packFileToFile_ok L hio hm'
    refine ⟨data, packed, md, h1, h2, ⟨fun hn => ?_, fun name hn => ?_⟩, h3⟩
    · unfold processMetadataArgs at hp
      rw [hn] at hp
      cases hp; rfl
    · unfold processMetadataArgs FS.openRead at hp
      rw [hn] at hp
      simp only at hp
      cases hc : w.fs.files name with
      | none => rw [hc] at hp; cases hp
      | some content =>
        rw [hc] at hp
        exact ⟨content, rfl, (Prod.mk.inj hp).1⟩

theorem compress_writes (E : Env μ) (L : E.Laws) (args : CliArgs) (w : World) (hok : (cliCompress E args w).1 = .ok ())
    (hio : args.in_file ≠ compressionOut args) :
    ∃ data packed md, w.fs.files args.in_file = some data ∧
      (cliCompress E args w).2.fs.files (compressionOut args) = some packed ∧
      packBytesToBytes E data args.chunk_size md args.blosc { offsets := args.offsets, checksum := args.checksum } {} = .ok packed := by
  obtain ⟨data, packed, md, h1, h2, -, h3⟩ := compress_writes_md E L args w hok hio
  exact ⟨data, packed, md, h1, h2, h3⟩

theorem decompress_writes (E : Env μ) (S : Shown μ) (args : CliArgs) (w : World) (out : String)
    (ho : decompressionOut args w.log = (.ok out, w.log)) (hok : (cliDecompress E S args w).1 = .ok ()) :
    ∃ packed data md, w.fs.files args.in_file = some packed ∧ (cliDecompress E S args w).2.fs.files out = some data ∧
      unpackBytesFromBytes E packed = .ok (data, md) := by
  rcases cliDecompress_cases E S args w out ho with ⟨msg, -, h⟩ | ⟨-, h⟩
  · rw [h] at hok; cases hok
  · rw [h] at hok
    rw [h, decompressHandler_fs]
    have : ∃ md, (unpackFileFromFile E w.fs args.in_file out).1 = .ok md := by
      generalize (unpackFileFromFile E w.fs args.in_file out).1 = r at hok
      unfold decompressHandler at hok
      split at hok
      · exact ⟨_, rfl⟩
      · exact ⟨_, rfl⟩
      · cases hok
      · cases hok
      · cases hok
    obtain ⟨md, hmd⟩ := this
    obtain ⟨packed, data, h1, h2, h3⟩ := unpackFileFromFile_ok hmd
    exact ⟨packed, data, md, h1, h2, h3⟩

/-- the output name of `compress F` (no output name given), of `compress F G` -/
theorem compressionOut_eq (args : CliArgs) :
    (args.out_file = none → compressionOut args = args.in_file ++ ".blp") ∧
    (∀ G, args.out_file = some G → G ≠ "" → compressionOut args = G) := by
  unfold compressionOut orElseName
  refine ⟨fun h => ?_, fun G h hG => ?_⟩
  · rw [h, ofList_append_ext]
  · rw [h]; simp only [if_neg hG]

/-- the output name of `decompress F.blp` (no output name given), of `decompress X G` -/
theorem decompressionOut_eq (args : CliArgs) (s : Log) :
    (∀ F : String, args.in_file = F ++ ".blp" → args.out_file = none → args.no_check_extension = false →
      decompressionOut args s = (.ok F, s)) ∧
    (∀ G, args.out_file = some G → G ≠ "" → Spec.ExtensionFine args → decompressionOut args s = (.ok G, s)) := by
  unfold decompressionOut
  refine ⟨fun F h1 h2 h3 => ?_, fun G h1 h2 h3 => ?_⟩
  · rw [h3, if_neg (by decide), if_pos ((endsWith_iff _).2 ⟨F, h1⟩), h2, h1, strip_ext]
    rfl
  · rw [h1]
    split
    · rfl
    · rename_i hn
      rcases h3 with h3 | h3
      · exact absurd h3 hn
      · rw [if_pos ((endsWith_iff _).2 h3)]
        unfold orElseName
        simp only [if_neg h2]
        rfl

/-- C34: `blpk compress F` changes no file other than `F.blp`, and if it succeeds `F.blp` holds the packed contents of
`F`, wherever it is put afterwards; `blpk compress F G` does the same for `G`, if `G` is not `F` (see C66). -/
theorem C34_compress (E : Env μ) (L : E.Laws) (S : Shown μ) (prog : List Char) (args : CliArgs) (fs : FS) (target : String)
    (hcmd : Spec.IsCompress args)
    (htarget : (args.out_file = none ∧ target = args.in_file ++ ".blp") ∨ (args.out_file = some target ∧ target ≠ "")) :
    Spec.SameExcept target fs (blpk E S prog args fs).2.fs ∧
    ((blpk E S prog args fs).1 = .ok () → args.out_file ≠ some args.in_file → ∃ data packed md, fs.files args.in_file = some data ∧
      (blpk E S prog args fs).2.fs.files target = some packed ∧ unpackBytesFromBytes E packed = .ok (data, md) ∧
      ∀ (fs' : FS) (name : String), fs'.files name = some packed → unpackBytesFromFile E fs' name = .ok (data, md)) := by
  have ht : compressionOut args = target := by
    rcases htarget with ⟨h1, rfl⟩ | ⟨h1, h2⟩
    · exact (compressionOut_eq args).1 h1
    · exact (compressionOut_eq args).2 _ h1 h2
  rw [blpk_result, blpk_fs, cliMain_compress E S hcmd, ← ht]
  refine ⟨compress_frame E args _, fun hok hne => ?_⟩
  have hio : args.in_file ≠ compressionOut args := by
    rw [ht]
    rcases htarget with ⟨h1, rfl⟩ | ⟨h1, h2⟩
    · intro h
      have := congrArg (fun s => s.toList.length) h
      simp at this
    · rintro rfl; exact hne h1
  obtain ⟨data, packed, md, h1, h2, h3⟩ := compress_writes E L args _ hok hio
  refine ⟨data, packed, md, h1, h2, C01_roundtrip E L _ _ _ _ _ _ _ h3, fun fs' name hf => ?_⟩
  rw [unpackBytesFromFile_eq E hf, packed_unpackFrom L h3]

/-- C34: `blpk decompress F.blp` changes no file other than `F`, and if it succeeds `F` holds the unpacked contents of
`F.blp`; `blpk decompress X G` does the same for `G` if `X` has the extension or `--no-check-extension` was given. -/
theorem C34_decompress (E : Env μ) (S : Shown μ) (prog : List Char) (args : CliArgs) (fs : FS) (target : String)
    (hcmd : Spec.IsDecompress args)
    (htarget : (args.out_file = none ∧ args.in_file = target ++ ".blp" ∧ args.no_check_extension = false) ∨
      (args.out_file = some target ∧ target ≠ "" ∧ Spec.ExtensionFine args)) :
    Spec.SameExcept target fs (blpk E S prog args fs).2.fs ∧
    ((blpk E S prog args fs).1 = .ok () → ∃ packed data md, fs.files args.in_file = some packed ∧
      (blpk E S prog args fs).2.fs.files target = some data ∧ unpackBytesFromBytes E packed = .ok (data, md)) := by
  have ht : ∀ s, decompressionOut args s = (.ok target, s) := by
    intro s
    rcases htarget with ⟨h1, h2, h3⟩ | ⟨h1, h2, h3⟩
    · exact (decompressionOut_eq args s).1 _ h2 h1 h3
    · exact (decompressionOut_eq args s).2 _ h1 h2 h3
  rw [blpk_result, blpk_fs, cliMain_decompress E S hcmd]
  exact ⟨decompress_frame E S args _ _ (ht _), fun hok => decompress_writes E S args _ _ (ht _) hok⟩

/-- C34: `decompress` refuses an input without the extension, and `--no-check-extension` without output name: exit
code 1, an error printed, no file changed. -/
theorem C34_refused (E : Env μ) (S : Shown μ) (prog : List Char) (args : CliArgs) (fs : FS) (hcmd : Spec.IsDecompress args)
    (hbad : (args.no_check_extension = false ∧ ∀ F : String, args.in_file ≠ F ++ ".blp") ∨
      (args.no_check_extension = true ∧ args.out_file = none)) :
    (blpk E S prog args fs).1 = .error (.systemExit 1) ∧ (blpk E S prog args fs).2.fs = fs ∧
    Spec.ErrorPrinted prog args (blpk E S prog args fs).2.log.out := by
  have : ∃ msg, decompressionOut args = logError msg ∧ 'r' ∈ msg ∨ decompressionOut args = logError msg ∧ 'i' ∈ msg := by
    unfold decompressionOut
    rcases hbad with ⟨h1, h2⟩ | ⟨h1, h2⟩
    · rw [h1, if_neg (by decide), if_neg]
      · exact ⟨_, .inr ⟨rfl, by simp⟩⟩
      · rw [endsWith_iff]; rintro ⟨F, hF⟩; exact h2 F hF
    · rw [h1, h2, if_pos rfl]; exact ⟨_, .inl ⟨rfl, by decide⟩⟩
  obtain ⟨msg, hmsg⟩ := this
  have : ∃ c ∈ msg, c ≠ '\n' := by
    rcases hmsg with ⟨-, h⟩ | ⟨-, h⟩
    · exact ⟨_, h, by decide⟩
    · exact ⟨_, h, by decide⟩
  obtain ⟨c, hc1, hc2⟩ := this
  have hmsg : decompressionOut args = logError msg := by
    rcases hmsg with ⟨h, -⟩ | ⟨h, -⟩ <;> exact h
  have hrun : cliMain E S args (startWorld prog args fs) = onLog (logError msg) (startWorld prog args fs) := by
    rw [cliMain_decompress E S hcmd, cliDecompress_refused E S args _ msg hmsg]
  rw [blpk_result, blpk_fs, hrun]
  exact ⟨rfl, rfl, blpk_errorPrinted E S prog args fs (by rw [hrun]; rfl) (by rw [hrun]; rfl) hc1 hc2⟩

/-! ### C36 -/

/-- decompressing a file that unpacks -/
theorem decompress_total (E : Env μ) (S : Shown μ) (prog : List Char) (args : CliArgs) (fs : FS) (target : String)
    (data : Bytes) (md : Option μ) (hcmd : Spec.IsDecompress args)
    (htarget : (args.out_file = none ∧ args.in_file = target ++ ".blp" ∧ args.no_check_extension = false) ∨
      (args.out_file = some target ∧ target ≠ "" ∧ Spec.ExtensionFine args))
    (hne : args.in_file ≠ target) (hw : fs.canWrite target = true)
    (hnew : fs.files target = none ∨ args.force = true) (hun : unpackBytesFromFile E fs args.in_file = .ok (data, md)) :
    (blpk E S prog args fs).1 = .ok () ∧ (blpk E S prog args fs).2.fs.files target = some data := by
  have ht : ∀ s, decompressionOut args s = (.ok target, s) := by
    intro s
    rcases htarget with ⟨h1, h2, h3⟩ | ⟨h1, h2, h3⟩
    · exact (decompressionOut_eq args s).1 _ h2 h1 h3
    · exact (decompressionOut_eq args s).2 _ h1 h2 h3
  obtain ⟨packed, hin⟩ : ∃ packed, fs.files args.in_file = some packed := by
    cases hin : fs.files args.in_file with
    | none => unfold unpackBytesFromFile FS.openRead at hun; rw [hin] at hun; cases hun
    | some packed => exact ⟨packed, rfl⟩
  obtain ⟨fs', h1, h2⟩ := ((C46_unpack_files E fs args.in_file target packed hin hw hne).1 data md).1 hun
  have hlev := startWorld_level prog args fs
  rw [blpk_result, blpk_fs, cliMain_decompress E S hcmd]
  rcases cliDecompress_cases E S args (startWorld prog args fs) target (ht _) with ⟨msg, h, -⟩ | ⟨-, h⟩
  · exfalso
    have : checkFiles (startWorld prog args fs).fs args.in_file target args.force = none := by
      rw [checkFiles_none_iff]
      show fs.exists _ = true ∧ (fs.exists _ = true → _)
      unfold FS.exists
      rw [hin]
      refine ⟨rfl, fun hx => ?_⟩
      rcases hnew with hnew | hnew
      · rw [hnew] at hx; cases hx
      · exact hnew
    rw [this] at h
    cases h
  · have hfs : (startWorld prog args fs).fs = fs := rfl
    rw [hfs] at h
    rw [h, decompressHandler_fs, h1]
    refine ⟨?_, h2⟩
    unfold decompressHandler
    cases md with
    | none => rfl
    | some m =>
      simp only
      split
      · exact logMetadata_ok S (some m) hlev
      · rfl

/-- C36: if `blpk compress F` succeeded, with whatever options, then `blpk decompress F.blp G`, to a new or overwritable
file other than `F` and `F.blp`, succeeds, `G` gets the contents of `F`, and `F` and `F.blp` are unchanged. In
between other files may change. -/
theorem C36_roundtrip (E : Env μ) (L : E.Laws) (S : Shown μ) (prog : List Char) (args args' : CliArgs) (fs fs' : FS) (F G : String)
    (data : Bytes) (hdata : fs.files F = some data)
    (hcmd : Spec.IsCompress args) (hin : args.in_file = F) (hout : args.out_file = none)
    (hok : (blpk E S prog args fs).1 = .ok ())
    (hsame : fs'.files (F ++ ".blp") = (blpk E S prog args fs).2.fs.files (F ++ ".blp"))
    (hcmd' : Spec.IsDecompress args') (hin' : args'.in_file = F ++ ".blp") (hout' : args'.out_file = some G)
    (hG : G ≠ "" ∧ G ≠ F ∧ G ≠ F ++ ".blp") (hw : fs'.canWrite G = true) (hnew : fs'.files G = none ∨ args'.force = true) :
    (blpk E S prog args fs).2.fs.files F = some data ∧
    (blpk E S prog args' fs').1 = .ok () ∧ (blpk E S prog args' fs').2.fs.files G = some data ∧
    (blpk E S prog args' fs').2.fs.files F = fs'.files F ∧
    (blpk E S prog args' fs').2.fs.files (F ++ ".blp") = fs'.files (F ++ ".blp") := by
  obtain ⟨h1, h2⟩ := C34_compress E L S prog args fs (F ++ ".blp") hcmd (.inl ⟨hout, by rw [hin]⟩)
  obtain ⟨data', packed, md, h3, h4, h5⟩ := h2 hok (by rw [hout]; simp)
  have h0 : data' = data := by rw [hin, hdata] at h3; cases h3; rfl
  subst h0
  have ht : Spec.ExtensionFine args' := .inr ⟨F, hin'⟩
  obtain ⟨h6, -⟩ := C34_decompress E S prog args' fs' G hcmd' (.inr ⟨hout', hG.1, ht⟩)
  obtain ⟨h7, h8⟩ := decompress_total E S prog args' fs' G data' md hcmd' (.inr ⟨hout', hG.1, ht⟩)
    (by rw [hin']; exact hG.2.2.symm) hw hnew (h5.2 fs' _ (by rw [hin', hsame, h4]))
  exact ⟨(h1 F (ext_ne F).symm).trans hdata, h7, h8, h6 F hG.2.1.symm, h6 _ hG.2.2.symm⟩

/-- C34, C36: `blpk compress F`, deleting `F`, and `blpk decompress F.blp` brings back `F` as it was. -/
theorem C34_inverse (E : Env μ) (L : E.Laws) (S : Shown μ) (prog : List Char) (args args' : CliArgs) (fs fs' : FS) (F : String)
    (data : Bytes) (hdata : fs.files F = some data)
    (hcmd : Spec.IsCompress args) (hin : args.in_file = F) (hout : args.out_file = none)
    (hok : (blpk E S prog args fs).1 = .ok ())
    (hdel : fs'.files F = none ∧ fs'.files (F ++ ".blp") = (blpk E S prog args fs).2.fs.files (F ++ ".blp"))
    (hcmd' : Spec.IsDecompress args') (hin' : args'.in_file = F ++ ".blp") (hout' : args'.out_file = none)
    (hchk : args'.no_check_extension = false) (hw : fs'.canWrite F = true) :
    (blpk E S prog args' fs').1 = .ok () ∧ (blpk E S prog args' fs').2.fs.files F = some data := by
  obtain ⟨-, h2⟩ := C34_compress E L S prog args fs (F ++ ".blp") hcmd (.inl ⟨hout, by rw [hin]⟩)
  obtain ⟨data', packed, md, h3, h4, h5⟩ := h2 hok (by rw [hout]; simp)
  have h0 : data' = data := by rw [hin, hdata] at h3; cases h3; rfl
  subst h0
  exact decompress_total E S prog args' fs' F data' md hcmd' (.inl ⟨hout', hin', hchk⟩)
    (by rw [hin']; exact ext_ne F) hw (.inl hdel.1) (h5.2 fs' _ (by rw [hin', hdel.2, h4]))

/-- C36: with valid options `blpk compress F` does succeed, if `F` exists, `F.blp` can be written, and does not exist or may be
overwritten. -/
theorem C36_total (E : Env μ) (L : E.Laws) (S : Shown μ) (prog : List Char) (args : CliArgs) (fs : FS) (F : String)
    (data : Bytes) (hdata : fs.files F = some data) (hcmd : Spec.IsCompress args) (hin : args.in_file = F)
    (hout : args.out_file = none) (hw : fs.canWrite (F ++ ".blp") = true)
    (hnew : fs.files (F ++ ".blp") = none ∨ args.force = true)
    (md : Option μ)
    (hmd : (args.metadata = none ∧ md = none) ∨
      ∃ name content, args.metadata = some name ∧ fs.files name = some content ∧ E.loads (stripBytes content) = .ok md)
    (hgood : Spec.GoodSettings E data.length args.chunk_size args.blosc { offsets := args.offsets, checksum := args.checksum })
    (hgmd : Spec.GoodMetadata E md {}) :
    (blpk E S prog args fs).1 = .ok () := by
  have ht : compressionOut args = F ++ ".blp" := by rw [← hin]; exact (compressionOut_eq args).1 hout
  have hp : processMetadataArgs E args (startWorld prog args fs) = (.ok md, startWorld prog args fs) := by
    unfold processMetadataArgs
    rcases hmd with ⟨h1, rfl⟩ | ⟨name, content, h1, h2, h3⟩
    · rw [h1]
    · rw [h1]
      have : (startWorld prog args fs).fs.openRead name = .ok content := by
        show fs.openRead name = _
        unfold FS.openRead; rw [h2]
      simp only [this, h3]
  rw [blpk_result, cliMain_compress E S hcmd]
  have hfs : (startWorld prog args fs).fs = fs := rfl
  rcases cliCompress_cases E args (startWorld prog args fs) with ⟨msg, h, -⟩ | ⟨e, -, h, -⟩ | ⟨md', -, h', h⟩
  · exfalso
    have : checkFiles (startWorld prog args fs).fs args.in_file (compressionOut args) args.force = none := by
      rw [checkFiles_none_iff, ht, hin]
      show fs.exists _ = true ∧ (fs.exists _ = true → _)
      unfold FS.exists
      rw [hdata]
      refine ⟨rfl, fun hx => ?_⟩
      rcases hnew with hnew | hnew
      · rw [hnew] at hx; cases hx
      · exact hnew
    rw [this] at h
    cases h
  · rw [hp] at h; cases h
  · rw [hp] at h'
    cases h'
    rw [h, hfs, ht, hin]
    obtain ⟨out, h1, -⟩ := C01_total E L data _ md _ _ _ hgood hgmd
    obtain ⟨g1, g2, -, -⟩ := C46_pack_agree E L fs F (F ++ ".blp") data args.chunk_size md args.blosc
      { offsets := args.offsets, checksum := args.checksum } {} hdata hw (ext_ne F).symm
    obtain ⟨m', fs', g3, -⟩ := (g2 out).1 h1
    rw [g1, g3]
    rfl

/-! ### C49 -/

/-- C49, violated: on a file with another format version, or with a corrupted byte in a chunk (C21), `blpk decompress` prints
nothing and dies with `AttributeError`. -/
theorem C49_violated (E : Env μ) (S : Shown μ) (prog : List Char) (args : CliArgs) (fs : FS) (target : String)
    (input : Bytes) (hcmd : Spec.IsDecompress args)
    (htarget : (args.out_file = none ∧ args.in_file = target ++ ".blp" ∧ args.no_check_extension = false) ∨
      (args.out_file = some target ∧ target ≠ "" ∧ Spec.ExtensionFine args))
    (hin : fs.files args.in_file = some input) (hne : args.in_file ≠ target) (hw : fs.canWrite target = true)
    (hnew : fs.files target = none ∨ args.force = true)
    (hbad : unpackBytesFromFile E fs args.in_file = .error .formatVersionMismatch ∨
      unpackBytesFromFile E fs args.in_file = .error .checksumMismatch) :
    (blpk E S prog args fs).1 = .error .attributeError ∧
    (args.verbose = false → args.debug = false → (blpk E S prog args fs).2.log.out = []) := by
  have ht : ∀ s, decompressionOut args s = (.ok target, s) := by
    intro s
    rcases htarget with ⟨h1, h2, h3⟩ | ⟨h1, h2, h3⟩
    · exact (decompressionOut_eq args s).1 _ h2 h1 h3
    · exact (decompressionOut_eq args s).2 _ h1 h2 h3
  have hun : ∃ e fs', unpackFileFromFile E fs args.in_file target = (.error e, fs') ∧ (e = .formatVersionMismatch ∨ e = .checksumMismatch) := by
    have hag := (C46_unpack_files E fs args.in_file target input hin hw hne).2.1
    rcases hbad with h | h
    · obtain ⟨fs', h⟩ := (hag _).1 h; exact ⟨_, _, h, .inl rfl⟩
    · obtain ⟨fs', h⟩ := (hag _).1 h; exact ⟨_, _, h, .inr rfl⟩
  obtain ⟨e, fs', h1, h2⟩ := hun
  have hrun := cliMain_decompress E S hcmd
  have hfs : (startWorld prog args fs).fs = fs := rfl
  rcases cliDecompress_cases E S args (startWorld prog args fs) target (ht _) with ⟨msg, h, -⟩ | ⟨-, h⟩
  · exfalso
    have : checkFiles (startWorld prog args fs).fs args.in_file target args.force = none := by
      rw [checkFiles_none_iff]
      show fs.exists _ = true ∧ (fs.exists _ = true → _)
      unfold FS.exists
      rw [hin]
      refine ⟨rfl, fun hx => ?_⟩
      rcases hnew with hnew | hnew
      · rw [hnew] at hx; cases hx
      · exact hnew
    rw [this] at h
    cases h
  · rw [hfs, h1] at h
    rw [← hrun] at h
    refine ⟨?_, fun hv hd => ?_⟩
    · rw [blpk_result, h]
      rcases h2 with rfl | rfl <;> rfl
    · obtain ⟨before, after, h3, h4⟩ := blpk_printed E S prog args fs (lines := []) (by rw [h]; rcases h2 with rfl | rfl <;> rfl)
      rw [h3, (h4 hv hd).1, (h4 hv hd).2]
      rfl

/-- C49, what holds: the exit code is 1 in those cases nevertheless, and a missing input or an existing output (without
`--force`) is reported with an error line and exit code 1, with no file changed. -/
theorem C49_exit_partial (E : Env μ) (S : Shown μ) (prog : List Char) (args : CliArgs) (fs : FS) (target : String)
    (hcmd : Spec.IsDecompress args)
    (htarget : (args.out_file = none ∧ args.in_file = target ++ ".blp" ∧ args.no_check_extension = false) ∨
      (args.out_file = some target ∧ target ≠ "" ∧ Spec.ExtensionFine args)) :
    (∀ input, fs.files args.in_file = some input → args.in_file ≠ target → fs.canWrite target = true →
      (fs.files target = none ∨ args.force = true) →
      (unpackBytesFromFile E fs args.in_file = .error .formatVersionMismatch ∨ unpackBytesFromFile E fs args.in_file = .error .checksumMismatch) →
      Spec.exitCode (blpk E S prog args fs).1 = 1) ∧
    ((fs.files args.in_file = none ∨ (fs.files target ≠ none ∧ args.force = false)) →
      (blpk E S prog args fs).1 = .error (.systemExit 1) ∧ (blpk E S prog args fs).2.fs = fs ∧
      Spec.ErrorPrinted prog args (blpk E S prog args fs).2.log.out) := by
  refine ⟨fun input h1 h2 h3 h4 h5 => ?_, fun h => ?_⟩
  · rw [(C49_violated E S prog args fs target input hcmd htarget h1 h2 h3 h4 h5).1]; rfl
  · have ht : ∀ s, decompressionOut args s = (.ok target, s) := by
      intro s
      rcases htarget with ⟨h1, h2, h3⟩ | ⟨h1, h2, h3⟩
      · exact (decompressionOut_eq args s).1 _ h2 h1 h3
      · exact (decompressionOut_eq args s).2 _ h1 h2 h3
    rcases cliDecompress_cases E S args (startWorld prog args fs) target (ht _) with ⟨msg, h0, h1⟩ | ⟨h1, -⟩
    · obtain ⟨c, hc1, hc2⟩ := checkFiles_message h0
      rw [← cliMain_decompress E S hcmd] at h1
      rw [blpk_result, blpk_fs, h1]
      exact ⟨rfl, rfl, blpk_errorPrinted E S prog args fs (by rw [h1]; rfl) (by rw [h1]; rfl) hc1 hc2⟩
    · exfalso
      rw [checkFiles_none_iff] at h1
      have h1 : fs.exists args.in_file = true ∧ (fs.exists target = true → args.force = true) := h1
      unfold FS.exists at h1
      rcases h with h | ⟨h, hf⟩
      · rw [h] at h1; exact absurd h1.1 (by decide)
      · rw [hf] at h1
        cases hx : fs.files target with
        | none => exact h hx
        | some d => rw [hx] at h1; exact absurd (h1.2 rfl) (by decide)

/-! ### non-vacuity -/

namespace CliExample
def shown : Shown Nat := { truthy := fun n => n ≠ 0, pformat := fun _ => ['m'] }
def fs : FS := ⟨fun x => if x = "f" then some [1, 2, 3] else none, fun _ => true⟩
def cArgs : CliArgs := { subcommand := some "c", in_file := "f", chunk_size := .int 2, offsets := false }
def dArgs : CliArgs := { subcommand := some "d", in_file := "f.blp", out_file := some "g" }

/-- compressing and decompressing a file of two chunks -/
example : (blpk Toy.env shown [] cArgs fs).1 = .ok () ∧
    (blpk Toy.env shown [] dArgs (blpk Toy.env shown [] cArgs fs).2.fs).2.fs.files "g" = some [1, 2, 3] := by
  decide +kernel

/-- the output exists: refused -/
example : Spec.exitCode (blpk Toy.env shown ['x'] { cArgs with out_file := some "f" } fs).1 = 1 ∧
    (blpk Toy.env shown ['x'] { cArgs with out_file := some "f" } fs).2.log.out = ["x: error: output file 'f' exists!".toList] := by
  decide +kernel

/-- another version number: `AttributeError` -/
example : (blpk Toy.env shown [] dArgs ⟨fun x => if x = "f.blp" then ((blpk Toy.env shown [] cArgs fs).2.fs.files "f.blp").map (fun d => d.set 4 2) else none, fun _ => true⟩).1.toOption = none := by
  decide +kernel
end CliExample

end Bloscpack
