import Verif.Lemmas.Options
import Verif.Props.NumberText
import Verif.Examples.Toy
/-
C69 to C72: the options of the command line tool.
-/
namespace Bloscpack
variable {μ : Type}
open Spec

/-! ### C72: which command lines are accepted, and what they mean -/

/-- C72: for an accepted command line the tool does what it does with the settings the command line means. -/
theorem C72_accepted (E : Env μ) (S : Shown μ) (P : ParserEnv) (prog : List Char) (c : CommandLine) (fs : FS) (h : Accepted E P c) :
    blpkMain E S P prog c fs = blpk E S prog (settings c) fs := by
  rcases parseArgs_cases E P c { ({} : Log) with pfx := prog } with ⟨-, s, h1, h2, -⟩ | ⟨h1, -⟩
  · have h3 : onLog (parseArgs E P c) { fs := fs, log := { ({} : Log) with pfx := prog } } =
        (.ok s, { fs := fs, log := { ({} : Log) with pfx := prog } }) := by
      unfold onLog
      simp only [h1]
    have h0 : onLog (setPrefix prog) { fs := fs } = (.ok (), { fs := fs, log := { ({} : Log) with pfx := prog } }) := rfl
    unfold blpkMain blpk
    rw [Proc.bind_of_ok h0, Proc.bind_of_ok h0, Proc.bind_of_ok h3, h2]
  · exact absurd h h1

/-- C72: any other command line ends before anything is done: no file is changed, and what the tool does is one of the ways
of refusing a command line: usage error (exit code 2), help text (0), number of threads or chunk size with an error message (1), or,
for the empty and for infinite chunk sizes, a traceback. -/
theorem C72_refused (E : Env μ) (S : Shown μ) (P : ParserEnv) (prog : List Char) (c : CommandLine) (fs : FS) (h : ¬ Accepted E P c) :
    ∃ e, (blpkMain E S P prog c fs).1 = .error e ∧ (blpkMain E S P prog c fs).2.fs = fs ∧
      Refusal P c.globals ((c.subcommand.map Prod.snd).getD []) prog e (blpkMain E S P prog c fs).2.log.out := by
  rcases parseArgs_cases E P c { ({} : Log) with pfx := prog } with ⟨h1, -⟩ | ⟨-, e, lines, h1, h2⟩
  · exact absurd h1 h
  · have h3 : onLog (parseArgs E P c) { fs := fs, log := { ({} : Log) with pfx := prog } } =
        (.error e, { fs := fs, log := { ({} : Log) with pfx := prog, out := [] ++ lines } }) := by
      unfold onLog
      simp only [h1]
    have h0 : onLog (setPrefix prog) { fs := fs } = (.ok (), { fs := fs, log := { ({} : Log) with pfx := prog } }) := rfl
    have h4 : blpkMain E S P prog c fs = (.error e, { fs := fs, log := { ({} : Log) with pfx := prog, out := [] ++ lines } }) := by
      unfold blpkMain
      rw [Proc.bind_of_ok h0, Proc.bind_of_error h3]
    rw [h4]
    exact ⟨e, rfl, rfl, h2⟩

/-- C72: if there is nothing wrong with the numbers of threads and the chunk sizes, and no help is asked for, a command line that is not
accepted ends with exit code 2 and prints nothing through the log module. -/
theorem C72_usage (E : Env μ) (S : Shown μ) (P : ParserEnv) (prog : List Char) (c : CommandLine) (fs : FS) (h : ¬ Accepted E P c)
    (items : List CliItem) (hitems : items = (c.subcommand.map Prod.snd).getD [])
    (hhelp : ∀ o ∈ ["-h", "--help", "--version"], CliItem.flag o ∉ c.globals ++ items)
    (hn : ∀ o ∈ ["-n", "--nthreads"], ∀ v, CliItem.value o v ∈ c.globals → ∀ n, pyInt v = some n → 1 ≤ n ∧ n ≤ P.max_threads)
    (hz : ∀ o ∈ ["-z", "--chunk-size"], ∀ v, CliItem.value o v ∈ items → ∃ n, chunkSize v = some n) :
    exitCode (blpkMain E S P prog c fs).1 = 2 ∧ (blpkMain E S P prog c fs).2.log.out = [] ∧ (blpkMain E S P prog c fs).2.fs = fs := by
  obtain ⟨e, h1, h2, h3⟩ := C72_refused E S P prog c fs h
  rw [← hitems] at h3
  rw [h1]
  generalize (blpkMain E S P prog c fs).2.log.out = out at h3
  cases h3 with
  | usage => exact ⟨rfl, rfl, h2⟩
  | help o hi ho => exact absurd hi (hhelp o ho)
  | nthreads o v n lines hi ho hn' hbad => exact absurd (hn o ho v hi n hn') hbad
  | chunk_size o v lines hi ho hne hbad =>
    obtain ⟨n, hn'⟩ := hz o ho v hi
    rw [hbad] at hn'; cases hn'
  | empty o hi ho =>
    obtain ⟨n, hn'⟩ := hz o ho [] hi
    cases hn'
  | infinite o v hi ho hv =>
    obtain ⟨n, hn'⟩ := hz o ho v hi
    unfold chunkSize at hn'
    split at hn'
    · rename_i hmax
      rw [hmax, show reversePretty "max".toList = .error .valueError by decide +kernel] at hv
      cases hv
    · split at hn'
      · cases hn'
      · rename_i c' hc
        have hlast : c' ∈ "BKMGT".toList := by
          refine Decidable.byContradiction fun hno => ?_
          have : v = v.dropLast ++ [c'] := by
            have hne : v ≠ [] := by rintro rfl; cases hc
            rw [List.getLast?_eq_some_getLast hne] at hc
            cases hc
            exact (List.dropLast_concat_getLast hne).symm
          rw [this, C38_rejected _ _ (fun k hk => hno ((suffix_isSome c').1 (by rw [(suffixValue_spec c' k).1 hk]; rfl)))] at hv
          cases hv
        rw [if_pos hlast, hv] at hn'
        cases hn'

/-! ### C71: the settings of the file that is written -/

/-- C71: `blpk compress` with any accepted options, in any order: if it succeeds, the output file is exactly what packing the input in
memory gives with the value of the last occurrence of each option, and the documented default for options that were not
given. -/
theorem C71_compress (E : Env μ) (L : E.Laws) (S : Shown μ) (P : ParserEnv) (prog : List Char) (c : CommandLine) (fs : FS)
    (name : String) (items : List CliItem) (inp out : String) (hacc : Accepted E P c) (hs : c.subcommand = some (name, items))
    (hcmd : name = "compress" ∨ name = "c")
    (hfiles : (positionals items = [inp] ∧ out = inp ++ ".blp") ∨ (positionals items = [inp, out] ∧ out ≠ "" ∧ out ≠ inp))
    (hok : (blpkMain E S P prog c fs).1 = .ok ()) :
    ∃ data packed md, fs.files inp = some data ∧ (blpkMain E S P prog c fs).2.fs.files out = some packed ∧
      (valuesOf ["-m", "--metadata"] items = [] → md = none) ∧
      (∀ file, (valuesOf ["-m", "--metadata"] items).getLast? = some file →
        ∃ content, fs.files (String.ofList file) = some content ∧ E.loads (stripBytes content) = .ok md) ∧
      packBytesToBytes E data
        (chunk_size := setting ["-z", "--chunk-size"] items (.str "1M".toList) (fun v => .int ((chunkSize v).getD 0)))
        (metadata := md)
        (a := { typesize := setting ["-t", "--typesize"] items 8 (fun v => (pyInt v).getD 0)
                clevel := setting ["-l", "--clevel"] items 7 (fun v => (pyInt v).getD 0)
                shuffle := if switch ["-s", "--no-shuffle"] items then 0 else 1
                cname := setting ["-c", "--codec"] items "blosclz" String.ofList })
        (b := { offsets := !switch ["-o", "--no-offsets"] items
                checksum := setting ["-k", "--checksum"] items "adler32" String.ofList }) = .ok packed := by
  have hset : settings c = withFiles (commandSettings
      { verbose := switch (globalNames .verbose) c.globals, debug := switch (globalNames .debug) c.globals,
        force := switch (globalNames .force) c.globals, subcommand := some name } items) .compress (positionals items) := by
    unfold settings
    rw [hs]
    rcases hcmd with rfl | rfl <;> rfl
  rw [C72_accepted E S P prog c fs hacc, blpk_result] at hok
  rw [C72_accepted E S P prog c fs hacc, blpk_fs]
  generalize hargs : settings c = args at hok hset ⊢
  have hsub : IsCompress args := by
    rw [hset]
    rcases hcmd with rfl | rfl
    · exact .inl rfl
    · exact .inr rfl
  have hin : args.in_file = inp := by
    rw [hset]
    rcases hfiles with ⟨h, -⟩ | ⟨h, -, -⟩ <;> (unfold withFiles; rw [h]; rfl)
  have hout : compressionOut args = out := by
    rcases hfiles with ⟨h, rfl⟩ | ⟨h, hne, -⟩
    · rw [← hin]
      refine (compressionOut_eq args).1 ?_
      rw [hset]; unfold withFiles; rw [h]; rfl
    · refine (compressionOut_eq args).2 _ ?_ hne
      rw [hset]; unfold withFiles; rw [h]; rfl
  have hio : args.in_file ≠ compressionOut args := by
    rw [hin, hout]
    rcases hfiles with ⟨-, rfl⟩ | ⟨-, -, hne⟩
    · exact (ext_ne inp).symm
    · exact hne.symm
  rw [cliMain_compress E S hsub] at hok ⊢
  obtain ⟨data, packed, md, h1, h2, h3, h4⟩ := compress_writes_md E L args _ hok hio
  refine ⟨data, packed, md, by rw [← hin]; exact h1, by rw [← hout]; exact h2, ?_, ?_, ?_⟩
  · intro hnone
    refine h3.1 ?_
    rw [hset]
    show setting ["-m", "--metadata"] items none _ = none
    unfold setting
    rw [hnone]; rfl
  · intro file hfile
    refine h3.2 (String.ofList file) ?_
    rw [hset]
    show setting ["-m", "--metadata"] items none _ = _
    unfold setting
    rw [hfile]
  · rw [hset] at h4
    exact h4

/-! ### C70: the order of the options -/

/-- C70: the options may be given in any order, before or after the file names (unless argparse is of the version that wants the file
names of `compress` and `decompress` next to each other): if two command lines differ only in the order of their parts, the
file names are in the same order, and so are the values given for the same option, then they are accepted or refused together, and if
they are accepted the tool does the same. -/
theorem C70_order (E : Env μ) (S : Shown μ) (P : ParserEnv) (prog : List Char) (c c' : CommandLine) (fs : FS) (name : String)
    (items items' : List CliItem) (hs : c.subcommand = some (name, items)) (hs' : c'.subcommand = some (name, items'))
    (heager : P.eager = false)
    (hglobals : ∀ i, i ∈ c.globals ↔ i ∈ c'.globals) (hitems : ∀ i, i ∈ items ↔ i ∈ items')
    (hfiles : positionals items = positionals items') (hvalues : ∀ opt, valuesOf (names opt) items = valuesOf (names opt) items') :
    (Accepted E P c ↔ Accepted E P c') ∧ (Accepted E P c → blpkMain E S P prog c fs = blpkMain E S P prog c' fs) := by
  have hsw : ∀ (ns : List String) (l l' : List CliItem), (∀ i, i ∈ l ↔ i ∈ l') → switch ns l = switch ns l' := by
    intro ns l l' h
    rw [Bool.eq_iff_iff]
    unfold switch
    rw [List.any_eq_true, List.any_eq_true]
    exact ⟨fun ⟨i, h1, h2⟩ => ⟨i, (h i).1 h1, h2⟩, fun ⟨i, h1, h2⟩ => ⟨i, (h i).2 h1, h2⟩⟩
  have hset : ∀ {α : Type} opt (d : α) f, setting (names opt) items d f = setting (names opt) items' d f := by
    intro α opt d f
    unfold setting
    rw [hvalues]
  have hone : ∀ (c c' : CommandLine) (items items' : List CliItem), c.subcommand = some (name, items) → c'.subcommand = some (name, items') →
      (∀ i, i ∈ c.globals ↔ i ∈ c'.globals) → (∀ i, i ∈ items ↔ i ∈ items') → positionals items = positionals items' →
      Accepted E P c → Accepted E P c' := by
    rintro c c' items items' hs hs' hg hi hf ⟨h1, h2, h3⟩
    refine ⟨fun i h => h1 i ((hg i).2 h), ?_, ?_⟩
    · rw [← hsw _ _ _ hg, ← hsw _ _ _ hg]; exact h2
    · intro n l hl
      rw [hs'] at hl
      cases hl
      obtain ⟨cmd, g1, g2, g3, -⟩ := h3 name items hs
      refine ⟨cmd, g1, fun i h => g2 i ((hi i).2 h), by rw [← hf]; exact g3, fun he => ?_⟩
      rw [heager] at he; cases he
  have hiff : Accepted E P c ↔ Accepted E P c' :=
    ⟨hone c c' items items' hs hs' hglobals hitems hfiles,
      hone c' c items' items hs' hs (fun i => (hglobals i).symm) (fun i => (hitems i).symm) hfiles.symm⟩
  refine ⟨hiff, fun hacc => ?_⟩
  rw [C72_accepted E S P prog c fs hacc, C72_accepted E S P prog c' fs (hiff.1 hacc)]
  congr 1
  unfold settings commandSettings
  rw [hs, hs']
  simp only [hset, hsw _ _ _ hglobals, hsw _ _ _ hitems, hfiles]

/-! ### C69: the chunk size -/

/-- the command line `blpk compress -z <v> <file>` -/
def Spec.compressWith (v : List Char) (file : String) : CommandLine :=
  { subcommand := some ("compress", [.value "-z" v, .positional file]) }

theorem compressWith_accepted (E : Env μ) (P : ParserEnv) (v : List Char) (file : String) :
    Accepted E P (compressWith v file) ↔ ∃ n, chunkSize v = some n := by
  constructor
  · rintro ⟨-, -, h⟩
    obtain ⟨cmd, -, h2, -, -⟩ := h _ _ rfl
    obtain ⟨opt, -, h3, h4⟩ := h2 (.value "-z" v) (by simp)
    rw [names_inj h3 (show "-z" ∈ names .chunk_size by decide)] at h4
    exact h4
  · rintro ⟨n, hn⟩
    refine ⟨by simp [compressWith], by simp [compressWith, switch], fun name items h => ?_⟩
    cases h
    refine ⟨.compress, by decide, ?_, by simp [positionals, Counts], fun _ _ => ⟨[.value "-z" v], [file], [], rfl, rfl, rfl⟩⟩
    intro i hi
    rcases List.mem_cons.1 hi with rfl | hi
    · exact ⟨.chunk_size, by decide, by decide, n, hn⟩
    · rcases List.mem_cons.1 hi with rfl | hi
      · trivial
      · cases hi

theorem compressWith_run (E : Env μ) (S : Shown μ) (P : ParserEnv) (prog : List Char) (v : List Char) (file : String) (fs : FS) (n : Int)
    (h : chunkSize v = some n) :
    blpkMain E S P prog (compressWith v file) fs =
      blpk E S prog { subcommand := some "compress", in_file := file, chunk_size := .int n } fs := by
  rw [C72_accepted E S P prog _ fs ((compressWith_accepted E P v file).2 ⟨n, h⟩)]
  congr 1
  have : settings (compressWith v file) =
      { subcommand := some "compress", in_file := file, chunk_size := .int ((chunkSize v).getD 0) } := rfl
  rw [this, h]
  rfl

/-- the last character of an integer is a digit or whitespace -/
theorem intText_last {v : List Char} {i : Int} (h : IntText v i) : ∃ c, v.getLast? = some c ∧ (c.isDigit = true ∨ blank c) := by
  obtain ⟨neg, sign, ds, h1, ⟨h2, h3⟩, ⟨a, u, b, rfl, ha, hb, hu⟩, rfl⟩ := h
  have hl := underscored_last hu
  rw [List.getLast?_append, List.getLast?_eq_some_getLast h2] at hl
  rw [List.getLast?_append, List.getLast?_append, hl]
  cases hlb : b.getLast? with
  | none => exact ⟨_, rfl, .inl (h3 _ (List.getLast_mem h2))⟩
  | some c => exact ⟨c, rfl, .inr (hb c (List.mem_of_getLast? hlb))⟩

/-- what `chunkSize` of the specification of the command line is: the size a text means, unless it is negative -/
theorem C69_size (v : List Char) (n : Int) : chunkSize v = some n ↔ SizeText v n ∧ 0 ≤ n := by
  have hsuffix : ∀ c : Char, c.isDigit = true ∨ blank c → c ∉ "BKMGT".toList ∧ c ≠ 'x' := by
    intro c hc
    constructor
    · intro h
      have h : c ∈ ['B', 'K', 'M', 'G', 'T'] := h
      simp only [List.mem_cons, List.not_mem_nil, or_false] at h
      rcases h with rfl | rfl | rfl | rfl | rfl <;> (rcases hc with hc | hc <;> simp [blank] at hc)
    · rintro rfl
      rcases hc with hc | hc <;> simp [blank] at hc
  constructor
  · intro h
    unfold chunkSize at h
    split at h
    · rename_i hm; cases h; exact ⟨.max hm, by decide⟩
    · split at h
      · cases h
      · rename_i c hc
        split at h
        · cases h
        · rename_i m hm
          split at h
          · rename_i h0
            cases h
            refine ⟨?_, h0⟩
            split at hm
            · refine .units _ (((C38_exact v).1 n).1 ?_)
              cases hr : reversePretty v with
              | error e => rw [hr] at hm; cases hm
              | ok j => rw [hr] at hm; cases hm; rfl
            · exact .bytes _ ((C72_int v n).1 hm)
          · cases h
  · rintro ⟨h, h0⟩
    unfold chunkSize
    cases h with
    | max hm => rw [if_pos hm]
    | bytes i hi =>
      obtain ⟨c, hc, hc'⟩ := intText_last hi
      have hm : v ≠ "max".toList := by
        rintro rfl
        cases hc
        exact (hsuffix _ hc').2 rfl
      rw [if_neg hm, hc]
      simp only
      rw [if_neg (hsuffix c hc').1, (C72_int v n).2 hi]
      simp only
      rw [if_pos h0]
    | units i hi =>
      have hr := ((C38_exact v).1 n).2 hi
      obtain ⟨s, suffix, k, neg, m, x, r, rfl, hk, -, -, -, -⟩ := hi
      have hs : suffix ∈ "BKMGT".toList := (suffix_isSome suffix).1 (by rw [(suffixValue_spec suffix k).1 hk]; rfl)
      have hm : s ++ [suffix] ≠ "max".toList := by
        intro h
        have := congrArg List.getLast? h
        rw [List.getLast?_concat] at this
        cases this
        revert hs; decide
      rw [if_neg hm, List.getLast?_concat]
      simp only
      rw [if_pos hs, hr]
      simp only [Except.toOption]
      rw [if_pos h0]

/-- C69: every text that means a size that is not negative is taken as that size. -/
theorem C69_accepted (E : Env μ) (S : Shown μ) (P : ParserEnv) (prog : List Char) (v : List Char) (n : Int) (file : String) (fs : FS)
    (h : SizeText v n) (h0 : 0 ≤ n) :
    blpkMain E S P prog (compressWith v file) fs =
      blpk E S prog { subcommand := some "compress", in_file := file, chunk_size := .int n } fs :=
  compressWith_run E S P prog v file fs n ((C69_size v n).2 ⟨h, h0⟩)

/-- some texts: -/
example (E : Env μ) (S : Shown μ) (P : ParserEnv) (prog : List Char) (file : String) (fs : FS) :
    blpkMain E S P prog (compressWith " 1_000.5K".toList file) fs =
      blpk E S prog { subcommand := some "compress", in_file := file, chunk_size := .int 1024512 } fs :=
  C69_accepted E S P prog _ _ file fs (.units _ (((C38_exact _).1 _).1 (by decide +kernel))) (by decide)

/-- C69: `max` stands for the largest size blosc can handle, a decimal number for that many bytes, and a decimal number below `2 ^ 53`
followed by a suffix for that many units. -/
theorem C69_meaning (E : Env μ) (S : Shown μ) (P : ParserEnv) (prog : List Char) (file : String) (fs : FS) :
    (blpkMain E S P prog (compressWith "max".toList file) fs =
      blpk E S prog { subcommand := some "compress", in_file := file, chunk_size := .int (2 ^ 31 - 1 - 16) } fs) ∧
    (∀ ds : List Char, ds ≠ [] → (∀ c ∈ ds, c.isDigit = true) →
      blpkMain E S P prog (compressWith ds file) fs =
        blpk E S prog { subcommand := some "compress", in_file := file, chunk_size := .int (Spec.decimal ds) } fs) ∧
    (∀ (ds : List Char) (suffix : Char) (k : Nat), ds ≠ [] → (∀ c ∈ ds, c.isDigit = true) → (suffix, k) ∈ Spec.multiplier →
      Spec.decimal ds < 2 ^ 53 →
      blpkMain E S P prog (compressWith (ds ++ [suffix]) file) fs =
        blpk E S prog { subcommand := some "compress", in_file := file, chunk_size := .int (Spec.decimal ds * k : Nat) } fs) := by
  have hdig : ∀ (ds : List Char) (c : Char), (∀ c ∈ ds, c.isDigit = true) → ds.getLast? = some c → c.isDigit = true :=
    fun ds c h hc => h c (List.mem_of_getLast? hc)
  refine ⟨compressWith_run E S P prog _ file fs _ rfl, fun ds hne hd => ?_, fun ds suffix k hne hd hk hlt => ?_⟩
  · refine compressWith_run E S P prog _ file fs _ ?_
    unfold chunkSize
    rw [if_neg (by rintro rfl; exact absurd (hd 'm' (by decide)) (by decide))]
    cases hl : ds.getLast? with
    | none => exact absurd (List.getLast?_eq_none_iff.1 hl) hne
    | some c =>
      simp only
      rw [if_neg, (pyInt_digits ds hd hne).1]
      · simp
      · intro hc
        have h1 : c.isDigit = true := hdig ds c hd hl
        have hc : c ∈ ['B', 'K', 'M', 'G', 'T'] := hc
        simp only [List.mem_cons, List.not_mem_nil, or_false] at hc
        rcases hc with rfl | rfl | rfl | rfl | rfl <;> revert h1 <;> decide
  · refine compressWith_run E S P prog _ file fs _ ?_
    have hs : suffix ∈ "BKMGT".toList := (suffix_isSome suffix).1 (by rw [(suffixValue_spec suffix k).1 hk]; rfl)
    unfold chunkSize
    rw [if_neg]
    · rw [List.getLast?_concat]
      simp only
      rw [if_pos hs, C38_integer ds suffix k hd hne hk hlt]
      show (if (0 : Int) ≤ ((Spec.decimal ds * k : Nat) : Int) then _ else _) = _
      rw [if_pos (Int.natCast_nonneg _)]
    · intro h
      have h1 : 'm' ∈ ds ++ [suffix] := by rw [h]; decide
      rcases List.mem_append.1 h1 with h1 | h1
      · exact absurd (hd _ h1) (by decide)
      · rw [List.mem_singleton] at h1
        rw [← h1] at hs
        revert hs; decide

/-- the option is evaluated first -/
theorem compressWith_error (E : Env μ) (S : Shown μ) (P : ParserEnv) (prog : List Char) (v : List Char) (file : String) (fs : FS) (e : Err)
    (log : Log) (h : checkChunkSizeOption "-z" v { ({} : Log) with pfx := prog } = (.error e, log)) :
    blpkMain E S P prog (compressWith v file) fs = (.error e, { fs := fs, log := log }) := by
  have h0 : onLog (setPrefix prog) { fs := fs } = (.ok (), { fs := fs, log := { ({} : Log) with pfx := prog } }) := rfl
  have h1 : ∀ s, parseCliItems E P "compress" (table .compress) [.value "-z" v, .positional file] s { ({} : Log) with pfx := prog } =
      (.error e, log) := by
    intro s
    rw [parseCliItems_option _ _ _ _ _ _ _ rfl]
    refine Proc.bind_of_error ?_
    show (do
      let args ← setValue E s.args "-z" v .chunk_size
      Proc.pure (some args) : Proc Log (Option CliArgs)) _ = _
    refine Proc.bind_of_error ?_
    unfold setValue
    exact Proc.bind_of_error h
  have h2 : parseArgs E P (compressWith v file) { ({} : Log) with pfx := prog } = (.error e, log) := by
    unfold parseArgs
    rw [Proc.bind_of_ok (show parseGlobals P _ _ _ = (.ok _, _) from rfl)]
    show (do
      let s ← parseCliItems E P "compress" (table .compress) [.value "-z" v, .positional file] _
      assignPositionals "compress" s : Proc Log Parsed) _ = _
    exact Proc.bind_of_error (h1 _)
  have h3 : onLog (parseArgs E P (compressWith v file)) { fs := fs, log := { ({} : Log) with pfx := prog } } =
      (.error e, { fs := fs, log := log }) := by
    unfold onLog
    simp only [h2]
  unfold blpkMain
  rw [Proc.bind_of_ok h0, Proc.bind_of_error h3]

/-- C69: every other text, except the empty one and those of infinite sizes, is refused: exit code 1, an error is printed, no file is
changed. Missing: the values of `C69_violated`. -/
theorem C69_refused_partial (E : Env μ) (S : Shown μ) (P : ParserEnv) (prog : List Char) (v : List Char) (file : String) (fs : FS)
    (hv : ¬ ∃ n, SizeText v n ∧ 0 ≤ n) (hne : v ≠ []) (hinf : ¬ InfiniteText v) :
    (blpkMain E S P prog (compressWith v file) fs).1 = .error (.systemExit 1) ∧
    (blpkMain E S P prog (compressWith v file) fs).2.fs = fs ∧
    ErrorPrinted prog {} (blpkMain E S P prog (compressWith v file) fs).2.log.out := by
  rcases checkChunkSize_eq "-z" v with ⟨n, h1, -⟩ | ⟨-, -, -, msg, ⟨x, hx, hx'⟩, h2⟩ | ⟨h1, -⟩ | ⟨-, h1, -⟩
  · exact absurd ⟨n, (C69_size v n).1 h1⟩ hv
  · obtain ⟨lines, h3, h4, h5⟩ := logError_lines (α := Int) { ({} : Log) with pfx := prog } msg x hx hx'
    rw [compressWith_error E S P prog v file fs _ _ (by rw [h2]; exact h3)]
    exact ⟨rfl, rfl, [], lines, rfl, h4, h5, fun _ _ => rfl⟩
  · exact absurd h1 hne
  · exact absurd ((C38_exact v).2.1.1 h1) hinf

/-- a negative number, and a number with something behind it, are such texts -/
example : (¬ ∃ n, SizeText "-5".toList n ∧ 0 ≤ n) ∧ (¬ ∃ n, SizeText "12x".toList n ∧ 0 ≤ n) ∧ (¬ ∃ n, SizeText "1.5".toList n ∧ 0 ≤ n) ∧
    (¬ ∃ n, SizeText "1.5.1K".toList n ∧ 0 ≤ n) ∧ ¬ InfiniteText "12x".toList ∧ ¬ InfiniteText "1.5.1K".toList := by
  have h : ∀ v, chunkSize v = none → ¬ ∃ n, SizeText v n ∧ 0 ≤ n := by
    rintro v hv ⟨n, hn⟩
    rw [← C69_size, hv] at hn
    cases hn
  refine ⟨h _ (by decide +kernel), h _ (by decide +kernel), h _ (by decide +kernel), h _ (by decide +kernel), ?_, ?_⟩ <;>
    (rw [← (C38_exact _).2.1]; decide +kernel)

/-- C69 is violated for these values, which the tool cannot use either: the program ends with a traceback, and no error message is
printed by the tool: the empty value (`IndexError`), infinite sizes (`OverflowError`), and, unless the file is empty, zero and sizes above
the largest size blosc can handle (`ValueError`). No file is changed. -/
theorem C69_violated (E : Env μ) (S : Shown μ) (P : ParserEnv) (prog : List Char) (file : String) (fs : FS) :
    (blpkMain E S P prog (compressWith [] file) fs).1 = .error .indexError ∧
    (blpkMain E S P prog (compressWith [] file) fs).2.fs = fs ∧ (blpkMain E S P prog (compressWith [] file) fs).2.log.out = [] ∧
    (∀ v, InfiniteText v →
      (blpkMain E S P prog (compressWith v file) fs).1 = .error .overflowError ∧
      (blpkMain E S P prog (compressWith v file) fs).2.fs = fs ∧ (blpkMain E S P prog (compressWith v file) fs).2.log.out = []) ∧
    (∀ (v : List Char) (n : Int) (data : Bytes), SizeText v n → n = 0 ∨ 2147483631 < n →
      fs.files file = some data → data ≠ [] → fs.files (file ++ ".blp") = none →
      (blpkMain E S P prog (compressWith v file) fs).1 = .error .valueError ∧
      (blpkMain E S P prog (compressWith v file) fs).2.fs = fs ∧ (blpkMain E S P prog (compressWith v file) fs).2.log.out = []) := by
  refine ⟨?_, ?_, ?_, ?_, ?_⟩
  · rw [compressWith_error E S P prog [] file fs .indexError _ rfl]
  · rw [compressWith_error E S P prog [] file fs .indexError _ rfl]
  · rw [compressWith_error E S P prog [] file fs .indexError _ rfl]
  · intro v hv
    have hr := (C38_exact v).2.1.2 hv
    have h : checkChunkSizeOption "-z" v { ({} : Log) with pfx := prog } = (.error .overflowError, { ({} : Log) with pfx := prog }) := by
      rcases checkChunkSize_eq "-z" v with ⟨n, h1, h2⟩ | ⟨-, -, h2, -⟩ | ⟨h1, -⟩ | ⟨-, -, h2⟩
      · exfalso
        obtain ⟨s, suffix, k, rfl, hk, -⟩ := hv
        have hs : suffix ∈ "BKMGT".toList := (suffix_isSome suffix).1 (by rw [(suffixValue_spec suffix k).1 hk]; rfl)
        unfold chunkSize at h1
        rw [if_neg, List.getLast?_concat] at h1
        · simp only at h1
          rw [if_pos hs, hr] at h1
          cases h1
        · intro h
          have := congrArg List.getLast? h
          rw [List.getLast?_concat] at this
          cases this
          revert hs; decide
      · exact absurd rfl (h2 _ hr)
      · rw [h1] at hr; cases hr
      · rw [h2]; rfl
    rw [compressWith_error E S P prog _ file fs _ _ h]
    exact ⟨rfl, rfl, rfl⟩
  · intro v n data hv hsize hdata hdne hnew
    rw [C69_accepted E S P prog v n file fs hv (by omega)]
    generalize hargs : ({ subcommand := some "compress", in_file := file, chunk_size := .int n } : CliArgs) = args
    have hsub : IsCompress args := by rw [← hargs]; exact .inl rfl
    have hin : args.in_file = file := by rw [← hargs]
    have hmd : args.metadata = none := by rw [← hargs]
    have hcs : args.chunk_size = .int n := by rw [← hargs]
    have hout : compressionOut args = file ++ ".blp" := by rw [← hin]; exact (compressionOut_eq args).1 (by rw [← hargs])
    have hpack : ∀ md a b m, packFileToFile E fs file (file ++ ".blp") (.int n) md a b m = (.error .valueError, fs) := by
      intro md a b m
      have hcalc : calculateNchunks data.length (.int n) = .error .valueError := by
        have hpos := List.length_pos_iff.2 hdne
        unfold calculateNchunks
        rw [if_neg (by omega), if_neg (by omega)]
        have hrange : checkRange (.int n) 1 BLOSC_MAX_BUFFERSIZE = .error .valueError := by
          unfold checkRange BLOSC_MAX_BUFFERSIZE
          exact if_neg (by omega)
        show (checkRange (.int n) 1 BLOSC_MAX_BUFFERSIZE >>= _) = _
        rw [hrange]
        rfl
      unfold packFileToFile FS.getsize
      rw [hdata]
      simp only [hcalc]
    have hrun : cliMain E S args (startWorld prog args fs) = (.error .valueError, startWorld prog args fs) := by
      rw [cliMain_compress E S hsub]
      rcases cliCompress_cases E args (startWorld prog args fs) with ⟨msg, h, -⟩ | ⟨e, -, h, -⟩ | ⟨md, -, -, h⟩
      · rw [hin, hout] at h
        unfold checkFiles FS.exists at h
        have h1 : (startWorld prog args fs).fs.files file = some data := hdata
        have h2 : (startWorld prog args fs).fs.files (file ++ ".blp") = none := hnew
        rw [h1, h2] at h
        simp at h
      · unfold processMetadataArgs at h
        rw [hmd] at h
        cases h
      · rw [h, hin, hout, hcs]
        rw [show (startWorld prog args fs).fs = fs from rfl, hpack]
        rfl
    refine ⟨by rw [blpk_result, hrun], by rw [blpk_fs, hrun]; rfl, ?_⟩
    obtain ⟨before, after, h1, h2⟩ := blpk_printed E S prog args fs (lines := []) (by rw [hrun]; rfl)
    obtain ⟨rfl, rfl⟩ := h2 (by rw [← hargs]) (by rw [← hargs])
    exact h1

/-! ### examples -/

/-- `blpk -f compress --typesize 4 -z 512K f -s --typesize=2 -k crc32` -/
def OptionsExample.line : CommandLine :=
  { globals := [.flag "-f"]
    subcommand := some ("compress",
      [.value "--typesize" "4".toList, .value "-z" "512K".toList, .positional "f", .flag "-s", .value "--typesize" "2".toList,
        .value "-k" "crc32".toList]) }

/-- the same in another order -/
def OptionsExample.line' : CommandLine :=
  { globals := [.flag "-f"]
    subcommand := some ("compress",
      [.flag "-s", .value "-k" "crc32".toList, .value "--typesize" "4".toList, .value "--typesize" "2".toList, .positional "f",
        .value "-z" "512K".toList]) }

/-- it is accepted, -/
theorem OptionsExample.accepted (P : ParserEnv) : Accepted Toy.env P OptionsExample.line := by
  refine ⟨?_, by decide, fun name items h => ?_⟩
  · intro i hi
    rw [List.mem_singleton.1 hi]
    exact ⟨.force, by decide, by decide⟩
  · cases h
    refine ⟨.compress, by decide, ?_, .inl rfl,
      fun _ _ => ⟨[.value "--typesize" "4".toList, .value "-z" "512K".toList], ["f"],
        [.flag "-s", .value "--typesize" "2".toList, .value "-k" "crc32".toList], rfl, rfl, rfl⟩⟩
    intro i hi
    simp only [List.mem_cons, List.not_mem_nil, or_false] at hi
    rcases hi with rfl | rfl | rfl | rfl | rfl | rfl
    · exact ⟨.typesize, by decide, by decide, 4, by decide⟩
    · exact ⟨.chunk_size, by decide, by decide, 524288, by decide +kernel⟩
    · trivial
    · exact ⟨.shuffle, by decide, by decide, by decide⟩
    · exact ⟨.typesize, by decide, by decide, 2, by decide⟩
    · exact ⟨.checksum, by decide, by decide, show _ ∈ _ by decide⟩

/-- what it means, -/
example :
    (let a := settings OptionsExample.line
     a.force = true ∧ a.subcommand = some "compress" ∧ a.in_file = "f" ∧ a.out_file = none ∧ a.blosc = { typesize := 2, shuffle := 0 } ∧
     (match a.chunk_size with | .int n => n = 524288 | _ => False) ∧ a.checksum = "crc32" ∧ a.offsets = true ∧ a.metadata = none) := by
  have h : (chunkSize "512K".toList).getD 0 = 524288 := by decide +kernel
  exact ⟨by decide, by decide, by decide, by decide, by decide, h, by decide, by decide, by decide⟩

/-- and it does the same as the other one. -/
example (S : Shown Nat) (fs : FS) (prog : List Char) :
    blpkMain Toy.env S { max_threads := 256, ncores := 4 } prog OptionsExample.line fs =
      blpkMain Toy.env S { max_threads := 256, ncores := 4 } prog OptionsExample.line' fs := by
  refine (C70_order Toy.env S { max_threads := 256, ncores := 4 } prog OptionsExample.line OptionsExample.line' fs "compress" _ _ rfl rfl rfl
    (fun _ => Iff.rfl) ?_ rfl ?_).2 (OptionsExample.accepted _)
  · intro i
    simp only [List.mem_cons, List.not_mem_nil, or_false]; constructor <;> (intro h; rcases h with h | h | h | h | h | h <;> simp [h])
  · intro opt
    cases opt <;> decide

/-- refused command lines: a missing file name, an unknown option, `-v` and `-d`, a help text, a chunk size, a number of threads -/
example :
    (let run := fun c => (blpkMain Toy.env CliExample.shown { max_threads := 256, ncores := 4 } "blpk".toList c CliExample.fs)
     exitCode (run { subcommand := some ("info", []) }).1 = 2 ∧
     exitCode (run { subcommand := some ("info", [.value "-z" "1M".toList, .positional "f.blp"]) }).1 = 2 ∧
     exitCode (run { globals := [.flag "-v", .flag "--debug"], subcommand := some ("info", [.positional "f.blp"]) }).1 = 2 ∧
     exitCode (run { subcommand := some ("compress", [.flag "--help"]) }).1 = 0 ∧
     (run (compressWith "-5".toList "f")).2.log.out.map String.ofList = ["blpk: error: -z must be > 0"] ∧
     (run { globals := [.value "-n" "257".toList] }).2.log.out.map String.ofList = ["blpk: error: -n must be 1 <= n <= 256"] ∧
     exitCode (run { globals := [.value "-n" "257".toList] }).1 = 1) := by
  decide +kernel

/-- `C71_compress` applies: this compression succeeds -/
example :
    exitCode (blpkMain Toy.env CliExample.shown { max_threads := 256, ncores := 4 } "blpk".toList OptionsExample.line CliExample.fs).1 = 0 := by
  decide +kernel

end Bloscpack
