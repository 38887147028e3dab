import Verif.Props.Cli
import Verif.Props.History
import Verif.Props.Headers
/-
C53, C54, C55: the `info` and `append` subcommands of the command line tool.
-/
namespace Bloscpack
variable {μ : Type}

/-- the `append` and `info` subcommands and their short names -/
def Spec.IsAppend (args : CliArgs) : Prop := args.subcommand = some "append" ∨ args.subcommand = some "a"
def Spec.IsInfo (args : CliArgs) : Prop := args.subcommand = some "info" ∨ args.subcommand = some "i"

theorem cliMain_append (E : Env μ) (S : Shown μ) {args : CliArgs} (h : Spec.IsAppend args) :
    cliMain E S args = cliAppend E args := by
  unfold cliMain
  unfold Spec.IsAppend at h
  rw [if_neg, if_neg, if_pos h] <;>
  · rintro (h' | h') <;> rcases h with h | h <;> rw [h] at h' <;> revert h' <;> decide

theorem cliMain_info (E : Env μ) (S : Shown μ) {args : CliArgs} (h : Spec.IsInfo args) :
    cliMain E S args = cliInfo E S args := by
  unfold cliMain
  unfold Spec.IsInfo at h
  rw [if_neg, if_neg, if_neg, if_pos h] <;>
  · rintro (h' | h') <;> rcases h with h | h <;> rw [h] at h' <;> revert h' <;> decide

theorem requireFile_missing {w : World} {what name : String} (h : w.fs.files name = none) :
    requireFile what name w = onLog (logError (what.toList ++ " '".toList ++ name.toList ++ "' does not exist!".toList)) w := by
  unfold requireFile FS.exists; rw [h]; rfl

theorem requireFile_there {w : World} {what name : String} {d : Bytes} (h : w.fs.files name = some d) :
    requireFile what name w = (.ok (), w) := by
  unfold requireFile FS.exists; rw [h]; rfl

/-! ### C53 -/

theorem infoHandler_fs (S : Shown μ) (r : Except Err (InfoRead μ)) (w : World) : (infoHandler S r w).2.fs = w.fs := by
  unfold infoHandler
  repeat' split
  all_goals rfl

theorem cliInfo_eq (E : Env μ) (S : Shown μ) (args : CliArgs) (w : World) (d : Bytes) (h : w.fs.files args.file_ = some d) :
    cliInfo E S args w = infoHandler S (infoRead E { data := d }).1 w := by
  unfold cliInfo
  rw [Proc.bind_of_ok (requireFile_there h)]
  have : onFS (infoNamed E args.file_) w = ((infoRead E { data := d }).1, w) := by
    unfold onFS infoNamed FS.openRead
    simp only [h]
  unfold attempt
  rw [this]

/-- C53: `blpk info` changes no file, whatever the arguments and the contents. -/
theorem C53_info_readonly (E : Env μ) (S : Shown μ) (prog : List Char) (args : CliArgs) (fs : FS) (hcmd : Spec.IsInfo args) :
    (blpk E S prog args fs).2.fs = fs := by
  rw [blpk_fs, cliMain_info E S hcmd]
  have hfs : (startWorld prog args fs).fs = fs := rfl
  cases h : fs.files args.file_ with
  | none =>
    unfold cliInfo
    rw [Proc.bind_of_error ((requireFile_missing h).trans rfl)]
    rfl
  | some d => rw [cliInfo_eq E S args _ d h, infoHandler_fs]; exact hfs

/-- C53: a missing file, and a file that is too short or does not start with the magic, is reported with an error message and
exit code 1. -/
theorem C53_info_rejects (E : Env μ) (S : Shown μ) (prog : List Char) (args : CliArgs) (fs : FS) (hcmd : Spec.IsInfo args)
    (hbad : fs.files args.file_ = none ∨
      ∃ input, fs.files args.file_ = some input ∧ (input.length < 32 ∨ input.take 4 ≠ [98, 108, 112, 107])) :
    (blpk E S prog args fs).1 = .error (.systemExit 1) ∧ Spec.ErrorPrinted prog args (blpk E S prog args fs).2.log.out := by
  have hrun : ∃ msg, (∃ c ∈ msg, c ≠ '\n') ∧ cliMain E S args (startWorld prog args fs) = onLog (logError msg) (startWorld prog args fs) := by
    rw [cliMain_info E S hcmd]
    rcases hbad with h | ⟨input, h, hbad⟩
    · unfold cliInfo
      rw [Proc.bind_of_error ((requireFile_missing (w := startWorld prog args fs) h).trans rfl)]
      exact ⟨_, ⟨'f', by simp, by decide⟩, rfl⟩
    · have hr : ∃ s, readBeginning E { data := input } = (.error .valueError, s) := by
        obtain ⟨s, hs⟩ := not_bloscpack_header input hbad
        exact ⟨s, by unfold readBeginning; rw [Proc.bind_of_error hs]⟩
      obtain ⟨s, hr⟩ := hr
      have : (infoRead E { data := input }).1 = .error .valueError := by
        unfold infoRead; rw [Proc.bind_of_error hr]
      rw [cliInfo_eq E S args (startWorld prog args fs) input h, this]
      exact ⟨_, ⟨'T', by decide, by decide⟩, rfl⟩
  obtain ⟨msg, ⟨c, hc1, hc2⟩, hrun⟩ := hrun
  rw [blpk_result, hrun]
  exact ⟨rfl, blpk_errorPrinted E S prog args fs (by rw [hrun]; rfl) (by rw [hrun]; rfl) hc1 hc2⟩

theorem decodeBloscHeader_flags {b : Bytes} {bh : BloscHeader} (h : decodeBloscHeader b = .ok bh) :
    ∃ x, b[2]? = some x ∧ bh.flags = x.toNat := by
  simp only [decodeBloscHeader, Except.bind_ok_iff] at h
  obtain ⟨_, _, _, _, x, hx, _, _, _, _, _, _, ct, hct, h⟩ := h
  unfold byteAt at hx
  split at hx
  · rename_i y hy
    cases hx
    cases h
    exact ⟨_, hy, rfl⟩
  · cases hx

/-! ### C54, C55 -/

/-- the checks before anything is done -/
theorem cliAppend_refused (E : Env μ) (args : CliArgs) (w : World)
    (h : (args.no_check_extension = false ∧ ∀ F : String, args.original_file ≠ F ++ ".blp") ∨
      w.fs.files args.original_file = none ∨ w.fs.files args.new_file = none) :
    (cliAppend E args w).1 = .error (.systemExit 1) ∧ (cliAppend E args w).2.fs = w.fs ∧
    ∃ msg, (∃ c ∈ msg, c ≠ '\n') ∧ (cliAppend E args w).2.log.out = w.log.out ++ (messageLines msg).map (errorLine w.log.pfx) := by
  by_cases hx : args.no_check_extension = false ∧ endsWith args.original_file.toList EXTENSION = false
  · have : onLog (processAppendArgs args) w = onLog (logError ("original file '".toList ++ args.original_file.toList ++ "' does not end with '".toList ++ EXTENSION ++ "'".toList)) w := by
      unfold processAppendArgs; rw [if_pos hx]
    unfold cliAppend
    rw [Proc.bind_of_error (this.trans rfl)]
    exact ⟨rfl, rfl, _, ⟨'o', by simp, by decide⟩, rfl⟩
  · have h0 : onLog (processAppendArgs args) w = (.ok (), w) := by
      unfold processAppendArgs; rw [if_neg hx]; rfl
    have h : w.fs.files args.original_file = none ∨ w.fs.files args.new_file = none := by
      rcases h with ⟨h1, h2⟩ | h
      · exfalso
        apply hx
        refine ⟨h1, ?_⟩
        cases he : endsWith args.original_file.toList EXTENSION with
        | false => rfl
        | true => obtain ⟨F, hF⟩ := (endsWith_iff _).1 he; exact absurd hF (h2 F)
      · exact h
    unfold cliAppend
    rw [Proc.bind_of_ok h0]
    cases ho : w.fs.files args.original_file with
    | none =>
      rw [Proc.bind_of_error ((requireFile_missing ho).trans rfl)]
      exact ⟨rfl, rfl, _, ⟨'o', by simp, by decide⟩, rfl⟩
    | some d =>
      rw [ho] at h
      have hn : w.fs.files args.new_file = none := by
        rcases h with h | h
        · cases h
        · exact h
      rw [Proc.bind_of_ok (requireFile_there ho), Proc.bind_of_error ((requireFile_missing hn).trans rfl)]
      exact ⟨rfl, rfl, _, ⟨'n', by simp, by decide⟩, rfl⟩

theorem appendNamed_frame (E : Env μ) (o n : String) (a : AppendArgs) (fs : FS) : Spec.SameExcept o fs (appendNamed E o n a fs).2 := by
  have hr : Spec.SameExcept o fs fs := fun _ _ => rfl
  unfold appendNamed
  split
  · exact put_frame hr _
  · exact hr

theorem rewriteNamed_frame (E : Env μ) (o : String) (md : Option μ) (fs : FS) : Spec.SameExcept o fs (rewriteNamed E o md fs).2 := by
  have hr : Spec.SameExcept o fs fs := fun _ _ => rfl
  unfold rewriteNamed
  split
  · exact hr
  · split
    · exact hr
    · exact put_frame hr _

theorem processMetadataArgs_state (E : Env μ) (args : CliArgs) (w : World) : (processMetadataArgs E args w).2 = w := by
  unfold processMetadataArgs
  repeat' split
  all_goals rfl

/-- in cases: something is missing or the metadata cannot be read; a failed append; an append and then the rewrite -/
theorem cliAppend_cases (E : Env μ) (args : CliArgs) (w : World) :
    ((cliAppend E args w).2.fs = w.fs ∧ (∃ e, (cliAppend E args w).1 = .error e) ∧
      (((args.no_check_extension = false ∧ ∀ F : String, args.original_file ≠ F ++ ".blp") ∨
        w.fs.files args.original_file = none ∨ w.fs.files args.new_file = none) ∨ ∃ e, processMetadataArgs E args w = (.error e, w))) ∨
    (∃ md orig new, processMetadataArgs E args w = (.ok md, w) ∧ w.fs.files args.original_file = some orig ∧
      w.fs.files args.new_file = some new ∧
      ((∃ e, (appendNamed E args.original_file args.new_file (.ofBlosc args.blosc) w.fs).1 = .error e ∧
        cliAppend E args w = (.error e, { w with fs := (appendNamed E args.original_file args.new_file (.ofBlosc args.blosc) w.fs).2 })) ∨
       ((appendNamed E args.original_file args.new_file (.ofBlosc args.blosc) w.fs).1 = .ok () ∧
        cliAppend E args w = onFS (rewriteNamed E args.original_file md) { w with fs := (appendNamed E args.original_file args.new_file (.ofBlosc args.blosc) w.fs).2 }))) := by
  by_cases hr : (args.no_check_extension = false ∧ ∀ F : String, args.original_file ≠ F ++ ".blp") ∨
      w.fs.files args.original_file = none ∨ w.fs.files args.new_file = none
  · obtain ⟨h1, h2, -⟩ := cliAppend_refused E args w hr
    exact .inl ⟨h2, ⟨_, h1⟩, .inl hr⟩
  · simp only [not_or] at hr
    obtain ⟨hx, ho, hn⟩ := hr
    obtain ⟨orig, ho⟩ := Option.ne_none_iff_exists'.1 ho
    obtain ⟨new, hn⟩ := Option.ne_none_iff_exists'.1 hn
    have h0 : onLog (processAppendArgs args) w = (.ok (), w) := by
      unfold processAppendArgs
      rw [if_neg]
      · rfl
      · rintro ⟨h1, h2⟩
        apply hx
        refine ⟨h1, fun F hF => ?_⟩
        rw [(endsWith_iff _).2 ⟨F, hF⟩] at h2
        cases h2
    have hm := processMetadataArgs_state E args w
    unfold cliAppend
    rw [Proc.bind_of_ok h0, Proc.bind_of_ok (requireFile_there ho), Proc.bind_of_ok (requireFile_there hn)]
    generalize hq : processMetadataArgs E args w = q at hm
    obtain ⟨r, w'⟩ := q
    simp only at hm
    subst hm
    cases r with
    | error e =>
      rw [Proc.bind_of_error hq]
      exact .inl ⟨rfl, ⟨e, rfl⟩, .inr ⟨e, rfl⟩⟩
    | ok md =>
      right
      refine ⟨md, orig, new, rfl, ho, hn, ?_⟩
      rw [Proc.bind_of_ok hq]
      generalize hap : appendNamed E args.original_file args.new_file (.ofBlosc args.blosc) w'.fs = ap
      obtain ⟨r, fs1⟩ := ap
      have hon : onFS (appendNamed E args.original_file args.new_file (.ofBlosc args.blosc)) w' = (r, { w' with fs := fs1 }) := by
        unfold onFS; rw [hap]
      cases r with
      | error e =>
        left
        refine ⟨e, rfl, ?_⟩
        rw [Proc.bind_of_error hon]
      | ok u =>
        right
        refine ⟨rfl, ?_⟩
        rw [Proc.bind_of_ok hon]

/-- the metadata `blpk append` is asked to store: none, or what the file given with `-m` holds (`null` counts as none) -/
def Spec.Wanted (E : Env μ) (args : CliArgs) (fs : FS) (md : Option μ) : Prop :=
  (args.metadata = none ∧ md = none) ∨
  ∃ name content, args.metadata = some name ∧ fs.files name = some content ∧ E.loads (stripBytes content) = .ok md

theorem wanted_of {E : Env μ} {args : CliArgs} {w w' : World} {md : Option μ} (h : processMetadataArgs E args w = (.ok md, w')) :
    Spec.Wanted E args w.fs md := by
  unfold processMetadataArgs at h
  split at h
  · rename_i hn; cases h; exact .inl ⟨hn, rfl⟩
  · rename_i name hn
    unfold FS.openRead at h
    cases hc : w.fs.files name with
    | none => rw [hc] at h; cases h
    | some content =>
      rw [hc] at h
      simp only [Prod.mk.injEq] at h
      exact .inr ⟨name, content, hn, hc, h.1⟩

/-- a conforming file, as any history produces -/
theorem appendNamed_conforming {E : Env μ} (L : E.Laws) {F : File μ} (hc : F.Conforming E) (hnn : F.NoNull) {o n : String}
    {a : AppendArgs} {fs : FS} {new : Bytes} (ho : fs.files o = some (F.bytes E)) (hn : fs.files n = some new)
    (hsize : (F.bytes E).length + 100 * new.length < 2 ^ 62) :
    ∃ F' : File μ, F'.Conforming E ∧ F'.NoNull ∧ (appendNamed E o n a fs).2.files o = some (F'.bytes E) ∧ F'.metadata = F.metadata ∧
      F'.sec = F.sec ∧
      (((appendNamed E o n a fs).1 = .ok () ∧ F'.data = F.data ++ new) ∨
       ((∃ e, (appendNamed E o n a fs).1 = .error e) ∧ F'.data = F.data)) := by
  unfold appendNamed FS.getsize FS.openRead FS.openUpdate
  rw [ho, hn]
  cases hw : fs.canWrite o with
  | false =>
    simp only [Bool.false_eq_true, if_false]
    exact ⟨F, hc, hnn, ho, rfl, rfl, .inr ⟨⟨_, rfl⟩, rfl⟩⟩
  | true =>
    simp only [if_true]
    have hput : ∀ d, (fs.put o d).files o = some d := by intro d; simp [FS.put]
    rw [hput]
    unfold appendFile
    generalize hrun : appendFp E { data := new } new.length a { data := F.bytes E } = res
    obtain ⟨r, fp⟩ := res
    cases r with
    | error e =>
      simp only
      rw [(C16_small E L F hc hnn new a e fp hsize hrun).1]
      exact ⟨F, hc, hnn, rfl, rfl, rfl, .inr ⟨⟨_, rfl⟩, rfl⟩⟩
    | ok k =>
      obtain ⟨-, F', g1, g2, g3, g4, g5, -, -, -, -, -, g6, -⟩ := C13_append E L F hc hnn new a k fp hrun
      refine ⟨F', g2, g3, ?_, g5, g6, ?_⟩
      · rw [← g1]; simp only; split <;> rfl
      · simp only
        split
        · rename_i h0
          rw [List.length_eq_zero_iff] at h0
          exact .inr ⟨⟨_, rfl⟩, by rw [g4, h0, List.append_nil]⟩
        · exact .inl ⟨rfl, g4⟩

theorem rewriteNamed_conforming {E : Env μ} (L : E.Laws) {F : File μ} (hc : F.Conforming E) (hnn : F.NoNull) {o : String}
    {fs : FS} (ho : fs.files o = some (F.bytes E)) (md : Option μ) :
    ∃ F' : File μ, F'.Conforming E ∧ F'.NoNull ∧ (rewriteNamed E o md fs).2.files o = some (F'.bytes E) ∧ F'.data = F.data ∧
      (((rewriteNamed E o md fs).1 = .ok () ∧ F'.metadata = if md.isSome then md else F.metadata) ∨
       ((∃ e, (rewriteNamed E o md fs).1 = .error e) ∧ F'.metadata = F.metadata ∧ md.isSome)) := by
  cases md with
  | none => exact ⟨F, hc, hnn, ho, rfl, .inl ⟨rfl, rfl⟩⟩
  | some m =>
    unfold rewriteNamed FS.openUpdate
    rw [ho]
    cases hw : fs.canWrite o with
    | false => exact ⟨F, hc, hnn, ho, rfl, .inr ⟨⟨_, rfl⟩, rfl, rfl⟩⟩
    | true =>
      have hput : ∀ d, (fs.put o d).files o = some d := by intro d; simp [FS.put]
      simp only [if_true, hput]
      generalize hrun : rewriteMetadata E (some m) {} { data := F.bytes E } = res
      obtain ⟨r, fp⟩ := res
      cases r with
      | error e =>
        simp only
        rw [(C11_failed_rewrite_untouched E _ _ _ _ _ hrun).1]
        exact ⟨F, hc, hnn, rfl, rfl, .inr ⟨⟨_, rfl⟩, rfl, rfl⟩⟩
      | ok u =>
        obtain ⟨-, -, -, -, F', g1, g2, g3, g4, -⟩ := C10_rewrite E L F hc _ _ _ hrun
        exact ⟨F', g2, fun h => (by rw [g4] at h; cases h), by rw [← g1], g3, .inl ⟨rfl, g4⟩⟩

/-- one `blpk append`, on a file as any history produces -/
theorem append_step {E : Env μ} (L : E.Laws) (S : Shown μ) (prog : List Char) (args : CliArgs) (fs : FS) (hcmd : Spec.IsAppend args)
    {F : File μ} (hc : F.Conforming E) (hnn : F.NoNull) (ho : fs.files args.original_file = some (F.bytes E)) {new : Bytes}
    (hn : fs.files args.new_file = some new) (hsize : (F.bytes E).length + 100 * new.length < 2 ^ 62) :
    ∃ F' : File μ, F'.Conforming E ∧ F'.NoNull ∧ (blpk E S prog args fs).2.fs.files args.original_file = some (F'.bytes E) ∧
      (((blpk E S prog args fs).1 = .ok () ∧ F'.data = F.data ++ new ∧
          ∃ want, Spec.Wanted E args fs want ∧ F'.metadata = if want.isSome then want else F.metadata) ∨
       ((blpk E S prog args fs).1 ≠ .ok () ∧ F'.metadata = F.metadata ∧
          (F'.data = F.data ∨ args.metadata ≠ none ∧ F'.data = F.data ++ new))) := by
  obtain ⟨F1, k1, k2, k3, k4, k5, k6⟩ := appendNamed_conforming L hc hnn (a := .ofBlosc args.blosc) ho hn hsize
  simp only [blpk_result, blpk_fs, cliMain_append E S hcmd]
  have hfs : (startWorld prog args fs).fs = fs := rfl
  rcases cliAppend_cases E args (startWorld prog args fs) with ⟨h1, ⟨e, h2⟩, -⟩ | ⟨want, orig, new', hw, -, -, ⟨e, h1, h2⟩ | ⟨h1, h2⟩⟩
  · rw [h1, h2, hfs]
    exact ⟨F, hc, hnn, ho, .inr ⟨nofun, rfl, .inl rfl⟩⟩
  · rw [hfs] at h1 h2
    rw [h2]
    refine ⟨F1, k1, k2, k3, .inr ⟨nofun, k4, .inl ?_⟩⟩
    rcases k6 with ⟨k6, -⟩ | ⟨-, k6⟩
    · rw [h1] at k6; cases k6
    · exact k6
  · rw [hfs] at h1 h2
    have k7 : F1.data = F.data ++ new := by
      rcases k6 with ⟨-, k6⟩ | ⟨⟨e, k6⟩, -⟩
      · exact k6
      · rw [h1] at k6; cases k6
    obtain ⟨F2, j1, j0, j2, j3, j4⟩ := rewriteNamed_conforming L k1 k2 k3 want
    have hrun : (cliAppend E args (startWorld prog args fs)).1 =
        (rewriteNamed E args.original_file want (appendNamed E args.original_file args.new_file (.ofBlosc args.blosc) fs).2).1 := by
      rw [h2]; rfl
    have hwant := wanted_of hw
    rw [hfs] at hwant
    refine ⟨F2, j1, j0, by rw [h2]; exact j2, ?_⟩
    rw [hrun, j3, k7]
    rcases j4 with ⟨j4, j5⟩ | ⟨⟨e, j4⟩, j5, j6⟩
    · rw [j4, j5, k4]
      exact .inl ⟨rfl, rfl, want, hwant, rfl⟩
    · rw [j4, j5, k4]
      refine .inr ⟨nofun, rfl, .inr ⟨fun hx => ?_, rfl⟩⟩
      rcases hwant with ⟨-, rfl⟩ | ⟨_, _, hy, -⟩
      · cases j6
      · rw [hx] at hy; cases hy

/-- C54: `blpk append O N` refuses if `O` does not have the extension (unless told not to check) or one of the files is missing:
an error is printed, exit code 1, no file changes. -/
theorem C54_refused (E : Env μ) (S : Shown μ) (prog : List Char) (args : CliArgs) (fs : FS) (hcmd : Spec.IsAppend args)
    (h : (args.no_check_extension = false ∧ ∀ F : String, args.original_file ≠ F ++ ".blp") ∨
      fs.files args.original_file = none ∨ fs.files args.new_file = none) :
    (blpk E S prog args fs).1 = .error (.systemExit 1) ∧ (blpk E S prog args fs).2.fs = fs ∧
    Spec.ErrorPrinted prog args (blpk E S prog args fs).2.log.out := by
  obtain ⟨h1, h2, msg, ⟨c, hc1, hc2⟩, h3⟩ := cliAppend_refused E args (startWorld prog args fs) h
  rw [← cliMain_append E S hcmd] at h1 h2 h3
  rw [blpk_result, blpk_fs]
  exact ⟨h1, h2, blpk_errorPrinted E S prog args fs h1 h3 hc1 hc2⟩

/-- C54: `blpk append O N` changes no file other than `O`, whatever happens. -/
theorem C54_only_original (E : Env μ) (S : Shown μ) (prog : List Char) (args : CliArgs) (fs : FS) (hcmd : Spec.IsAppend args) :
    Spec.SameExcept args.original_file fs (blpk E S prog args fs).2.fs := by
  rw [blpk_fs, cliMain_append E S hcmd]
  have hfs : (startWorld prog args fs).fs = fs := rfl
  rcases cliAppend_cases E args (startWorld prog args fs) with ⟨h, -⟩ | ⟨md, orig, new, -, -, -, ⟨e, -, h⟩ | ⟨-, h⟩⟩
  · rw [h]; exact fun _ _ => rfl
  · rw [h]; exact appendNamed_frame _ _ _ _ _
  · rw [h]
    intro x hx
    show (rewriteNamed E args.original_file md _).2.files x = _
    rw [rewriteNamed_frame _ _ _ _ x hx, appendNamed_frame _ _ _ _ _ x hx, hfs]

/-- C54: let `O` be any file obtained by packing followed by any history of appends and metadata rewrites, holding the data `D` and
the metadata `M`. If `blpk append O N` succeeds, `O` holds `D` followed by the contents of `N`, and the metadata
given with `-m`, otherwise `M`. If it fails, `O` still holds `D` and `M`, or, only if `-m` was given, `D` followed by
the contents of `N`, and `M`. -/
theorem C54_append (E : Env μ) (L : E.Laws) (S : Shown μ) (prog : List Char) (args : CliArgs) (fs : FS) (hcmd : Spec.IsAppend args)
    (data : Bytes) (cs : ChunkSizeArg) (md : Option μ) (a : BloscArgs) (b : BloscpackArgs) (m : MetadataArgs) (out : Bytes)
    (h : packBytesToBytes E data cs md a b m = .ok out) (log : List (Op μ × Bool)) (d : Bytes) (hist : Spec.History E out log d)
    (D : Bytes) (M : Option μ) (hDM : unpackBytesFromBytes E d = .ok (D, M))
    (ho : fs.files args.original_file = some d) (new : Bytes) (hn : fs.files args.new_file = some new)
    (_hne : args.original_file ≠ args.new_file)
    (d' : Bytes) (hd' : (blpk E S prog args fs).2.fs.files args.original_file = some d')
    (hsize : d.length + 100 * new.length < 2 ^ 62) :
    ((blpk E S prog args fs).1 = .ok () → ∃ want, Spec.Wanted E args fs want ∧
      unpackBytesFromBytes E d' = .ok (D ++ new, if want.isSome then want else M)) ∧
    ((blpk E S prog args fs).1 ≠ .ok () → unpackBytesFromBytes E d' = .ok (D, M) ∨
      (args.metadata ≠ none ∧ unpackBytesFromBytes E d' = .ok (D ++ new, M))) := by
  obtain ⟨F0, hF0, hc0, hnn0, -, -, -, -⟩ := packed_appendable E L _ _ _ _ _ _ _ h
  obtain ⟨F, rfl, hk, -⟩ := history_kept L hist F0 hF0 hc0 hnn0
  have hFD : F.data = D ∧ F.metadata = M := by
    rw [unpack_conforming L hk.conf.toValid] at hDM
    simp only [Except.ok.injEq, Prod.mk.injEq] at hDM
    exact hDM
  obtain ⟨rfl, rfl⟩ := hFD
  obtain ⟨F', k1, -, k2, k3⟩ := append_step L S prog args fs hcmd hk.conf hk.nonnull ho hn hsize
  rw [k2] at hd'
  cases hd'
  rw [unpack_conforming L k1.toValid]
  rcases k3 with ⟨h1, h2, want, h3, h4⟩ | ⟨h1, h2, h3⟩
  · exact ⟨fun _ => ⟨want, h3, by rw [h2, h4]⟩, fun hx => absurd h1 hx⟩
  · refine ⟨fun hx => absurd hx h1, fun _ => ?_⟩
    rw [h2]
    rcases h3 with h3 | ⟨h3, h4⟩
    · rw [h3]; exact .inl rfl
    · rw [h4]; exact .inr ⟨h3, rfl⟩

/-- with `-m`, if the same command without `-m` succeeds: the append, then the rewrite -/
theorem append_then_rewrite (E : Env μ) (L : E.Laws) (S : Shown μ) (prog : List Char) (args : CliArgs) (fs : FS) (hcmd : Spec.IsAppend args)
    (F : File μ) (hc : F.Conforming E) (hnn : F.NoNull)
    (ho : fs.files args.original_file = some (F.bytes E)) (new : Bytes) (hn : fs.files args.new_file = some new)
    (hsize : (F.bytes E).length + 100 * new.length < 2 ^ 62)
    (x : μ) (hx : Spec.Wanted E args fs (some x))
    (hok : (blpk E S prog { args with metadata := none } fs).1 = .ok ()) :
    ∃ F1 : File μ, F1.Conforming E ∧ F1.data = F.data ++ new ∧ F1.metadata = F.metadata ∧ F1.sec = F.sec ∧
      (blpk E S prog args fs).1 = (rewriteMetadata E (some x) {} ({ data := F1.bytes E } : FP)).1 ∧
      (blpk E S prog args fs).2.fs.files args.original_file = some (rewriteMetadata E (some x) {} ({ data := F1.bytes E } : FP)).2.data := by
  obtain ⟨F1, k1, k2, k3, k4, k5, k6⟩ := appendNamed_conforming L hc hnn (a := .ofBlosc args.blosc) ho hn hsize
  have hw : ∀ w : World, w.fs = fs → processMetadataArgs E args w = (.ok (some x), w) := by
    rintro w rfl
    unfold processMetadataArgs FS.openRead
    rcases hx with ⟨-, hx⟩ | ⟨name, content, h1, h2, h3⟩
    · cases hx
    · rw [h1]; simp only [h2, h3]
  have hcmd' : Spec.IsAppend { args with metadata := none } := hcmd
  rw [blpk_result, cliMain_append E S hcmd'] at hok
  rw [blpk_result, blpk_fs, cliMain_append E S hcmd]
  have hfs : (startWorld prog args fs).fs = fs := rfl
  have hap : (appendNamed E args.original_file args.new_file (.ofBlosc args.blosc) fs).1 = .ok () := by
    rcases cliAppend_cases E { args with metadata := none } (startWorld prog { args with metadata := none } fs) with ⟨-, ⟨e, h2⟩, -⟩ | ⟨want, orig, new', -, -, -, ⟨e, -, h2⟩ | ⟨h1, -⟩⟩
    · rw [h2] at hok; cases hok
    · rw [h2] at hok; cases hok
    · exact h1
  have hcase : cliAppend E args (startWorld prog args fs) = onFS (rewriteNamed E args.original_file (some x)) { startWorld prog args fs with fs := (appendNamed E args.original_file args.new_file (.ofBlosc args.blosc) fs).2 } := by
    have hext : ¬ ((args.no_check_extension = false ∧ ∀ F : String, args.original_file ≠ F ++ ".blp") ∨
        fs.files args.original_file = none ∨ fs.files args.new_file = none) := by
      intro hbad
      have := (cliAppend_refused E { args with metadata := none } (startWorld prog { args with metadata := none } fs) hbad).1
      rw [this] at hok; cases hok
    rcases cliAppend_cases E args (startWorld prog args fs) with ⟨-, -, h1 | ⟨e, h1⟩⟩ | ⟨want, orig, new', hw', -, -, ⟨e, h1, -⟩ | ⟨-, h1⟩⟩
    · exact absurd h1 hext
    · rw [hw _ hfs] at h1; cases h1
    · rw [hfs, hap] at h1; cases h1
    · rw [hw _ hfs] at hw'
      cases hw'
      exact h1
  have hcan : fs.canWrite args.original_file = true := by
    cases hcw : fs.canWrite args.original_file with
    | true => rfl
    | false =>
      unfold appendNamed FS.getsize FS.openRead FS.openUpdate at hap
      rw [ho, hn, hcw] at hap
      cases hap
  have hcan' : (appendNamed E args.original_file args.new_file (.ofBlosc args.blosc) fs).2.canWrite args.original_file = true := by
    unfold appendNamed
    split
    · exact hcan
    · exact hcan
  have k7 : F1.data = F.data ++ new := by
    rcases k6 with ⟨-, k6⟩ | ⟨⟨e, k6⟩, -⟩
    · exact k6
    · rw [hap] at k6; cases k6
  generalize (appendNamed E args.original_file args.new_file (.ofBlosc args.blosc) fs).2 = fs1 at *
  have hfin : rewriteNamed E args.original_file (some x) fs1 = ((rewriteMetadata E (some x) {} ({ data := F1.bytes E } : FP)).1,
      fs1.put args.original_file (rewriteMetadata E (some x) {} ({ data := F1.bytes E } : FP)).2.data) := by
    unfold rewriteNamed FS.openUpdate
    rw [k3, hcan']
    simp only [if_true]
  rw [hcase]
  unfold onFS
  simp only [hfin]
  exact ⟨F1, k1, k7, k4, k5, rfl, by simp [FS.put]⟩

/-- C55, violated: if `blpk append O N` would succeed and `O` was packed without metadata, then `blpk append -m X O N`
(`X` holding anything but `null`) fails, with `NoMetadataFound` and exit code 1, but has appended the contents of `N` to `O` all
the same. -/
theorem C55_violated (E : Env μ) (L : E.Laws) (S : Shown μ) (prog : List Char) (args : CliArgs) (fs : FS) (hcmd : Spec.IsAppend args)
    (data : Bytes) (cs : ChunkSizeArg) (a : BloscArgs) (b : BloscpackArgs) (m : MetadataArgs) (out : Bytes)
    (h : packBytesToBytes E data cs none a b m = .ok out)
    (ho : fs.files args.original_file = some out) (new : Bytes) (hn : fs.files args.new_file = some new)
    (_hne : args.original_file ≠ args.new_file) (hsize : out.length + 100 * new.length < 2 ^ 62)
    (x : μ) (hx : Spec.Wanted E args fs (some x))
    (hok : (blpk E S prog { args with metadata := none } fs).1 = .ok ()) :
    (blpk E S prog args fs).1 = .error .noMetadataFound ∧ Spec.exitCode (blpk E S prog args fs).1 = 1 ∧
    ∃ d', (blpk E S prog args fs).2.fs.files args.original_file = some d' ∧
      unpackBytesFromBytes E d' = .ok (data ++ new, none) := by
  obtain ⟨F, n, c, l, m', rfl, hc, -, rfl, hmd, hsec, -⟩ := packBytesToBytes_ok L h
  have hsn : F.sec = none := by
    have := hsec.isSome
    cases hs : F.sec with
    | none => rfl
    | some s => rw [hs] at this; cases this
  obtain ⟨F1, k1, k2, k3, k4, k5, k6⟩ := append_then_rewrite E L S prog args fs hcmd F hc (fun _ => hsn) ho new hn hsize x hx hok
  have hs1 : F1.sec = none := by rw [k4, hsn]
  generalize hrun : rewriteMetadata E (some x) {} { data := F1.bytes E } = res at k5 k6
  obtain ⟨r, fp⟩ := res
  cases r with
  | ok u =>
    exfalso
    rcases rewrite_run L k1 (some x) {} [] _ _ hrun with ⟨e, h1, -⟩ | ⟨s, s', h1, -⟩
    · cases h1
    · rw [hs1] at h1; cases h1
  | error e =>
    rcases C11_reasons E L F1 k1 _ _ _ _ hrun with ⟨-, rfl⟩ | ⟨s, hs, -⟩
    · rw [k5]
      refine ⟨rfl, rfl, _, k6, ?_⟩
      rw [(C11_failed_rewrite_untouched E _ _ _ _ _ hrun).1, unpack_conforming L k1.toValid, k2, k3, hmd]
    · rw [hs1] at hs; cases hs

/-- C55, what holds: if `O` was packed with metadata, and the metadata in `X` differs from it and its serialized form fits into the
space reserved in `O`, then `blpk append -m X O N` succeeds whenever `blpk append O N` does, and `O` holds both. -/
theorem C55_with_metadata_partial (E : Env μ) (L : E.Laws) (S : Shown μ) (prog : List Char) (args : CliArgs) (fs : FS) (hcmd : Spec.IsAppend args)
    (data : Bytes) (cs : ChunkSizeArg) (y : μ) (a : BloscArgs) (b : BloscpackArgs) (m : MetadataArgs) (out : Bytes)
    (h : packBytesToBytes E data cs (some y) a b m = .ok out)
    (ho : fs.files args.original_file = some out) (new : Bytes) (hn : fs.files args.new_file = some new)
    (_hne : args.original_file ≠ args.new_file) (hsize : out.length + 100 * new.length < 2 ^ 62)
    (x : μ) (hx : Spec.Wanted E args fs (some x)) (hdiff : E.metaEq (some y) (some x) = false)
    (str : List Char) (hd : E.dumps (some x) = .ok str)
    (hfit : ∀ hdr md mh os fp, readBeginning E { data := out } = (.ok (hdr, md, some mh, os), fp) → (str.length : Int) ≤ mh.max_meta_size)
    (hok : (blpk E S prog { args with metadata := none } fs).1 = .ok ()) :
    (blpk E S prog args fs).1 = .ok () ∧
    ∃ d', (blpk E S prog args fs).2.fs.files args.original_file = some d' ∧
      unpackBytesFromBytes E d' = .ok (data ++ new, some x) := by
  obtain ⟨F, n, c, l, m', rfl, hc, -, rfl, hmd, hsec, -⟩ := packBytesToBytes_ok L h
  have hsn : ∃ s, F.sec = some s := by
    have := hsec.isSome
    cases hs : F.sec with
    | none => rw [hs] at this; cases this
    | some s => exact ⟨s, rfl⟩
  obtain ⟨s, hs⟩ := hsn
  have hnn : F.NoNull := by intro hz; rw [hmd] at hz; cases hz
  obtain ⟨F1, k1, k2, k3, k4, k5, k6⟩ := append_then_rewrite E L S prog args fs hcmd F hc hnn ho new hn hsize x hx hok
  have hsm : s.metadata = some y := by rw [File.metadata, hs] at hmd; exact hmd
  have hmax : (str.length : Int) ≤ s.header.max_meta_size := by
    obtain ⟨os, g, -, -⟩ := readBeginning_file L hc.toPre (F.body E ++ F.junk) []
    rw [hs] at g
    exact hfit _ _ _ _ _ g
  obtain ⟨fp, hfp⟩ := C10_total E L F1 k1 s (by rw [k4, hs]) x (by rw [hsm]; exact hdiff) str hd hmax
  rw [hfp] at k5 k6
  refine ⟨k5, fp.data, k6, ?_⟩
  rw [(C10_rewrite E L F1 k1 _ _ _ hfp).1, k2]

/-- C55, all outcomes: if `blpk append O N` succeeds on a packed file, then `blpk append -m X O N` has appended the contents of `N` in
any case, and either succeeds and has stored the metadata in `X`, or fails and the metadata are as before: because there were none
(NoMetadataFound), because they are the same (NoChangeInMetadata), or because they cannot be written with the settings of the
file. -/
theorem C55_outcomes (E : Env μ) (L : E.Laws) (S : Shown μ) (prog : List Char) (args : CliArgs) (fs : FS) (hcmd : Spec.IsAppend args)
    (data : Bytes) (cs : ChunkSizeArg) (md : Option μ) (a : BloscArgs) (b : BloscpackArgs) (m : MetadataArgs) (out : Bytes)
    (h : packBytesToBytes E data cs md a b m = .ok out)
    (ho : fs.files args.original_file = some out) (new : Bytes) (hn : fs.files args.new_file = some new)
    (hsize : out.length + 100 * new.length < 2 ^ 62)
    (x : μ) (hx : Spec.Wanted E args fs (some x))
    (hok : (blpk E S prog { args with metadata := none } fs).1 = .ok ()) :
    ∃ d' md', (blpk E S prog args fs).2.fs.files args.original_file = some d' ∧ unpackBytesFromBytes E d' = .ok (data ++ new, md') ∧
      (((blpk E S prog args fs).1 = .ok () ∧ md' = some x ∧ md ≠ none ∧ E.metaEq md (some x) = false) ∨
       (md' = md ∧ ∃ e, (blpk E S prog args fs).1 = .error e ∧
        ((md = none ∧ e = .noMetadataFound) ∨ (md ≠ none ∧ E.metaEq md (some x) = true ∧ e = .noChangeInMetadata) ∨
          (md ≠ none ∧ E.metaEq md (some x) = false ∧ ∃ ma, writeMetadata E (some x) ma { data := [] } = (.error e, { data := [] }))))) := by
  obtain ⟨F, n, c, l, m', rfl, hc, -, rfl, hmd, hsec, -⟩ := packBytesToBytes_ok L h
  have hsn : md = none → F.sec = none := by
    rintro rfl
    have := hsec.isSome
    cases hs : F.sec with
    | none => rfl
    | some s => rw [hs] at this; cases this
  have hss : md ≠ none → ∃ s, F.sec = some s := by
    intro hm
    have := hsec.isSome
    cases hs : F.sec with
    | none => rw [hs] at this; cases md with
      | none => exact absurd rfl hm
      | some y => cases this
    | some s => exact ⟨s, rfl⟩
  have hnn : F.NoNull := fun hz => hsn (by rw [← hmd, hz])
  obtain ⟨F1, k1, k2, k3, k4, k5, k6⟩ := append_then_rewrite E L S prog args fs hcmd F hc hnn ho new hn hsize x hx hok
  generalize hrun : rewriteMetadata E (some x) {} { data := F1.bytes E } = res at k5 k6
  obtain ⟨r, fp⟩ := res
  have hsm : ∀ s, F1.sec = some s → s.metadata = md := by
    intro s hs
    rw [k4] at hs
    rw [← hmd, File.metadata, hs]
  have hnone : ∀ s, F1.sec = some s → md ≠ none := by
    intro s hs hz
    rw [k4, hsn hz] at hs
    cases hs
  cases r with
  | ok u =>
    refine ⟨_, some x, k6, ?_, .inl ⟨k5, rfl, ?_⟩⟩
    · rw [(C10_rewrite E L F1 k1 _ _ _ hrun).1, k2]
    · rcases rewrite_run L k1 (some x) {} [] _ _ hrun with ⟨e, h1, -⟩ | ⟨s, s', h1, -, -, -, h2, -⟩
      · cases h1
      · rw [hsm s h1] at h2
        exact ⟨hnone s h1, h2⟩
  | error e =>
    refine ⟨_, md, k6, ?_, .inr ⟨rfl, e, k5, ?_⟩⟩
    · rw [(C11_failed_rewrite_untouched E _ _ _ _ _ hrun).1, unpack_conforming L k1.toValid, k2, k3, hmd]
    · rcases C11_reasons E L F1 k1 _ _ _ _ hrun with ⟨h1, h2⟩ | ⟨s, hs, ⟨h1, h2⟩ | ⟨h1, h2⟩⟩
      · left
        refine ⟨Decidable.byContradiction fun hm => ?_, h2⟩
        obtain ⟨s, hs⟩ := hss hm
        rw [k4, hs] at h1
        cases h1
      · rw [hsm s hs] at h1
        exact .inr (.inl ⟨hnone s hs, h1, h2⟩)
      · rw [hsm s hs] at h1
        refine .inr (.inr ⟨hnone s hs, h1, ?_⟩)
        rcases h2 with ⟨f, h3, -⟩ | ⟨f, h3, -⟩ | ⟨f, h3, -⟩ | ⟨f, h3, h4, -⟩ | ⟨f, h3, h4, -⟩ | ⟨ma, -, h3⟩
        · cases h3
        · cases h3
        · cases h3
        · cases h3
          exact absurd (by decide) h4
        · cases h3
          exact absurd (by decide) h4
        · exact ⟨ma, h3⟩

/-- a file without and a file with metadata: the first command fails but has appended, the second succeeds -/
example :
    let X : Bytes → FS := fun o => ⟨fun n => if n = "o.blp" then some o else if n = "n" then some [4, 5] else if n = "x" then some [32, 91, 49, 49] else none, fun _ => true⟩
    let go : Option Nat → Option (Bool × Option (Bytes × Option Nat)) := fun md =>
      (packBytesToBytes Toy.env [1, 2, 3] (.int 2) md {} { max_app_chunks := .int 1 } { max_meta_size := .int 12 }).toOption.map (fun out =>
        let r := blpk Toy.env CliExample.shown [] { subcommand := some "a", original_file := "o.blp", new_file := "n", metadata := some "x" } (X out)
        (r.1.toBool, (r.2.fs.files "o.blp").bind (fun d => (unpackBytesFromBytes Toy.env d).toOption)))
    go none = some (false, some ([1, 2, 3, 4, 5], none)) ∧ go (some 5) = some (true, some ([1, 2, 3, 4, 5], some 2)) := by
  decide +kernel

end Bloscpack
