import Verif.Spec.Options
import Verif.Props.Cli
import Verif.Props.Pretty
/-
Lemmas for the command line options.
-/
namespace Bloscpack
variable {μ : Type}
open Spec

theorem mem_of_lookup {α : Type} {k : String} {v : α} : ∀ {l : List (String × α)}, l.lookup k = some v → (k, v) ∈ l
  | [], h => by cases h
  | (k', v') :: l, h => by
    rw [List.lookup_cons] at h
    split at h
    · rename_i hk
      rw [eq_of_beq hk]
      cases h
      exact List.mem_cons_self
    · exact List.mem_cons_of_mem _ (mem_of_lookup h)

/-! ### closed forms -/

theorem switch_cons (ns : List String) (i : CliItem) (l : List CliItem) : switch ns (i :: l) = (switch ns [i] || switch ns l) := by
  simp [switch]

theorem setting_cons {α : Type} (ns : List String) (i : CliItem) (l : List CliItem) (d : α) (f : List Char → α) :
    setting ns (i :: l) d f = setting ns l (setting ns [i] d f) f := by
  unfold setting
  have h : valuesOf ns (i :: l) = valuesOf ns [i] ++ valuesOf ns l := by
    show valuesOf ns ([i] ++ l) = _
    unfold valuesOf
    rw [List.filterMap_append]
  rw [h, List.getLast?_append]
  cases (valuesOf ns l).getLast? with
  | none => rfl
  | some v => rfl

theorem positionals_cons (i : CliItem) (l : List CliItem) : positionals (i :: l) = positionals [i] ++ positionals l := by
  show positionals ([i] ++ l) = _
  unfold positionals
  rw [List.filterMap_append]

def closeG (s : Parsed) (l : List CliItem) : Parsed :=
  { s with
    args := { s.args with
      verbose := s.args.verbose || switch (globalNames .verbose) l
      debug := s.args.debug || switch (globalNames .debug) l
      force := s.args.force || switch (globalNames .force) l }
    nthreads := setting (globalNames .nthreads) l s.nthreads (fun v => (pyInt v).getD 0) }

theorem closeG_cons (s : Parsed) (i : CliItem) (l : List CliItem) : closeG s (i :: l) = closeG (closeG s [i]) l := by
  unfold closeG
  simp only [switch_cons _ i l, setting_cons _ i l, Bool.or_assoc]

def closeA (args : CliArgs) (l : List CliItem) : CliArgs :=
  { args with
    blosc :=
      { typesize := setting (names .typesize) l args.blosc.typesize (fun v => (pyInt v).getD 0)
        clevel := setting (names .clevel) l args.blosc.clevel (fun v => (pyInt v).getD 0)
        shuffle := if switch (names .shuffle) l then 0 else args.blosc.shuffle
        cname := setting (names .cname) l args.blosc.cname String.ofList }
    chunk_size := setting (names .chunk_size) l args.chunk_size (fun v => .int ((chunkSize v).getD 0))
    checksum := setting (names .checksum) l args.checksum String.ofList
    offsets := args.offsets && !switch (names .offsets) l
    metadata := setting (names .metadata) l args.metadata (fun v => some (String.ofList v))
    no_check_extension := args.no_check_extension || switch (names .no_check_extension) l }

theorem closeA_cons (args : CliArgs) (i : CliItem) (l : List CliItem) : closeA args (i :: l) = closeA (closeA args [i]) l := by
  unfold closeA
  simp only [switch_cons _ i l, setting_cons _ i l, Bool.or_assoc, Bool.not_or, Bool.and_assoc]
  congr 2
  cases switch (names .shuffle) [i] <;> cases switch (names .shuffle) l <;> rfl

/-! ### options before the subcommand -/

theorem globalLookup_iff (o : String) (g : GlobalOpt) : globalOptions.lookup o = some g ↔ o ∈ globalNames g := by
  constructor
  · intro h
    have := mem_of_lookup h
    simp only [globalOptions, List.mem_cons, Prod.mk.injEq, List.not_mem_nil, or_false] at this
    rcases this with h | h | h | h | h | h | h | h | h | h | h <;> (obtain ⟨rfl, rfl⟩ := h; decide)
  · intro h
    cases g <;> simp only [globalNames, List.mem_cons, List.not_mem_nil, or_false] at h
    case version => subst h; decide
    all_goals (rcases h with rfl | rfl <;> decide)

theorem globalNames_inj {o : String} {g g' : GlobalOpt} (h : o ∈ globalNames g) (h' : o ∈ globalNames g') : g = g' := by
  rw [← globalLookup_iff] at h h'
  rw [h] at h'
  cases h'
  rfl

def Conflict (s : Parsed) : Prop := s.args.verbose = true ∧ s.args.debug = true

theorem logError_lines {α : Type} (log : Log) (msg : List Char) (c : Char) (h : c ∈ msg) (hc : c ≠ '\n') :
    ∃ lines, (logError msg : Proc Log α) log = (.error (.systemExit 1), { log with out := log.out ++ lines }) ∧ lines ≠ [] ∧
      ∀ l ∈ lines, log.pfx ++ ": error: ".toList <+: l :=
  ⟨_, rfl, errorPrinted h hc⟩

/-- the outcome of a step that refuses -/
def Refuses {α : Type} (P : ParserEnv) (gs is : List CliItem) (log : Log) (r : Except Err α × Log) : Prop :=
  ∃ e lines, r = (.error e, { log with out := log.out ++ lines }) ∧ Refusal P gs is log.pfx e lines

theorem refuses_usage {α : Type} (P : ParserEnv) (gs is : List CliItem) (log : Log) : Refuses P gs is log ((usageError : Proc Log α) log) :=
  ⟨_, [], by simp [usageError, Proc.raise], .usage⟩

theorem Refuses.bind {α β : Type} {P : ParserEnv} {gs is : List CliItem} {log : Log} {m : Proc Log α} (f : α → Proc Log β)
    (h : Refuses P gs is log (m log)) : Refuses P gs is log ((m >>= f) log) := by
  obtain ⟨e, lines, h1, h2⟩ := h
  exact ⟨e, lines, Proc.bind_of_error h1, h2⟩

theorem globalOption_cases (P : ParserEnv) (gs is : List CliItem) (s : Parsed) (i : CliItem) (hi : i ∈ gs) (log : Log) :
    (GoodGlobal P i ∧ globalOption P s i log = (.ok (closeG s [i]), log) ∧ (¬ Conflict s → ¬ Conflict (closeG s [i]))) ∨
    (¬ GoodGlobal P i ∧ globalOption P s i log = (.ok { s with extras := true }, log)) ∨
    ((¬ GoodGlobal P i ∨ Conflict (closeG s [i])) ∧ Refuses P gs is log (globalOption P s i log)) := by
  cases i with
  | positional n => exact .inr (.inr ⟨.inl id, refuses_usage _ _ _ _⟩)
  | flag o =>
    cases hl : globalOptions.lookup o with
    | none =>
      refine .inr (.inl ⟨?_, by simp only [globalOption, hl]; rfl⟩)
      rintro ⟨g, -, hg⟩
      rw [← globalLookup_iff, hl] at hg
      cases hg
    | some g =>
      rw [show globalOption P s (.flag o) = globalFlag s g by simp only [globalOption, hl]]
      have ho := (globalLookup_iff o g).1 hl
      have hbad : g ∉ [GlobalOpt.verbose, .debug, .force] → ¬ GoodGlobal P (.flag o) := by
        rintro hg ⟨g', h1, h2⟩
        rw [← globalNames_inj ho h2] at h1
        exact hg h1
      have hsw : ∀ g', switch (globalNames g') [.flag o] = decide (g = g') := by
        intro g'
        simp only [switch, List.any_cons, List.any_nil, Bool.or_false, decide_eq_decide]
        exact ⟨fun h => globalNames_inj ho h, fun h => h ▸ ho⟩
      have hset : ∀ g' d (f : List Char → Int), setting (globalNames g') [.flag o] d f = d := fun _ _ _ => rfl
      have hclose : closeG s [.flag o] =
          { s with args := { s.args with
              verbose := s.args.verbose || decide (g = .verbose)
              debug := s.args.debug || decide (g = .debug)
              force := s.args.force || decide (g = .force) } } := by
        unfold closeG
        simp only [hsw, hset]
      cases g with
      | help =>
        refine .inr (.inr ⟨.inl (hbad (by decide)), _, [], by simp [globalFlag, printAndExit, Proc.raise], .help o (List.mem_append_left _ hi) ?_⟩)
        simp only [globalNames, List.mem_cons, List.not_mem_nil, or_false] at ho ⊢
        rcases ho with h | h <;> simp [h]
      | version =>
        refine .inr (.inr ⟨.inl (hbad (by decide)), _, [], by simp [globalFlag, printAndExit, Proc.raise], .help o (List.mem_append_left _ hi) ?_⟩)
        simp only [globalNames, List.mem_cons, List.not_mem_nil, or_false] at ho ⊢
        simp [ho]
      | verbose =>
        by_cases hd : s.args.debug = true
        · refine .inr (.inr ⟨.inr ?_, ?_⟩)
          · rw [hclose]; exact ⟨by simp, by simp [hd]⟩
          · simp only [globalFlag, hd, if_true]; exact refuses_usage _ _ _ _
        · refine .inl ⟨⟨_, by decide, ho⟩, ?_, fun _ => ?_⟩
          · simp only [globalFlag, hd]; rw [hclose]; simp [Proc.pure]; simpa using hd
          · rw [hclose]; rintro ⟨-, h⟩; simp [hd] at h
      | debug =>
        by_cases hd : s.args.verbose = true
        · refine .inr (.inr ⟨.inr ?_, ?_⟩)
          · rw [hclose]; exact ⟨by simp [hd], by simp⟩
          · simp only [globalFlag, hd, if_true]; exact refuses_usage _ _ _ _
        · refine .inl ⟨⟨_, by decide, ho⟩, ?_, fun _ => ?_⟩
          · simp only [globalFlag, hd]; rw [hclose]; simp [Proc.pure]; simpa using hd
          · rw [hclose]; rintro ⟨h, -⟩; simp [hd] at h
      | force =>
        refine .inl ⟨⟨_, by decide, ho⟩, ?_, fun hn => ?_⟩
        · rw [hclose]; simp [globalFlag, Proc.pure]
        · rw [hclose]; rintro ⟨h, h'⟩; exact hn ⟨by simpa using h, by simpa using h'⟩
      | nthreads => exact .inr (.inr ⟨.inl (hbad (by decide)), refuses_usage _ _ _ _⟩)
  | value o v =>
    cases hl : globalOptions.lookup o with
    | none =>
      refine .inr (.inl ⟨?_, by simp only [globalOption, hl]; rfl⟩)
      rintro ⟨hg, -⟩
      rw [← globalLookup_iff, hl] at hg
      cases hg
    | some g =>
      rw [show globalOption P s (.value o v) = globalValue P s o v g by simp only [globalOption, hl]]
      have ho := (globalLookup_iff o g).1 hl
      by_cases hg : g = .nthreads
      · subst hg
        simp only [globalValue]
        cases hp : pyInt v with
        | none =>
          refine .inr (.inr ⟨.inl ?_, refuses_usage _ _ _ _⟩)
          rintro ⟨-, n, h, -⟩
          rw [hp] at h; cases h
        | some n =>
          by_cases hn : 1 ≤ n ∧ n ≤ P.max_threads
          · refine .inl ⟨⟨ho, n, hp, hn⟩, ?_, ?_⟩
            · have h1 : checkThreadOption P o n log = (.ok n, log) := by
                unfold checkThreadOption
                rw [if_neg (not_not_intro hn)]; rfl
              have h2 : closeG s [.value o v] = { s with nthreads := n } := by
                unfold closeG
                simp [switch, setting, valuesOf, ho, hp]
              simp only
              rw [Proc.bind_of_ok h1, h2]; rfl
            · have h2 : Conflict (closeG s [.value o v]) ↔ Conflict s := by
                unfold Conflict closeG
                simp [switch]
              rw [h2]; exact id
          · refine .inr (.inr ⟨.inl ?_, ?_⟩)
            · rintro ⟨-, n', h, h'⟩
              rw [hp] at h; cases h; exact hn h'
            · obtain ⟨lines, h1, h2, h3⟩ := logError_lines (α := Int) log (o.toList ++ " must be 1 <= n <= ".toList ++ (toString P.max_threads).toList) 'm'
                (by simp) (by decide)
              have h4 : checkThreadOption P o n log = (.error (.systemExit 1), { log with out := log.out ++ lines }) := by
                unfold checkThreadOption
                rw [if_pos hn, h1]
              exact Refuses.bind _ ⟨_, lines, h4, .nthreads o v n lines hi ho hp hn h2 h3⟩
      · refine .inr (.inr ⟨.inl ?_, ?_⟩)
        · rintro ⟨h, -⟩; exact hg (globalNames_inj ho h)
        · cases g <;> first | exact absurd rfl hg | exact refuses_usage _ _ _ _

theorem conflict_mono {s : Parsed} (l : List CliItem) (h : Conflict s) : Conflict (closeG s l) := by
  unfold Conflict closeG
  simp [h.1, h.2]

theorem parseGlobals_cases (P : ParserEnv) (gs is : List CliItem) (log : Log) : ∀ (l : List CliItem) (s : Parsed), (∀ i ∈ l, i ∈ gs) →
    ¬ Conflict s →
    (s.extras = false ∧ (∀ i ∈ l, GoodGlobal P i) ∧ ¬ Conflict (closeG s l) ∧ parseGlobals P l s log = (.ok (closeG s l), log)) ∨
    (¬ (s.extras = false ∧ (∀ i ∈ l, GoodGlobal P i) ∧ ¬ Conflict (closeG s l)) ∧
      ((∃ s', parseGlobals P l s log = (.ok s', log) ∧ s'.extras = true) ∨ Refuses P gs is log (parseGlobals P l s log)))
  | [], s, _, hc => by
    have h : closeG s [] = s := by unfold closeG; simp [switch, setting, valuesOf]
    rw [h]
    cases he : s.extras with
    | false => exact .inl ⟨rfl, by simp, hc, rfl⟩
    | true => exact .inr ⟨by simp, .inl ⟨s, rfl, he⟩⟩
  | i :: l, s, hm, hc => by
    rw [closeG_cons]
    rcases globalOption_cases P gs is s i (hm i List.mem_cons_self) log with ⟨h1, h2, h3⟩ | ⟨h1, h2⟩ | ⟨h1, h2⟩
    · have h4 : parseGlobals P (i :: l) s log = parseGlobals P l (closeG s [i]) log := Proc.bind_of_ok h2
      rw [h4]
      rcases parseGlobals_cases P gs is log l (closeG s [i]) (fun j hj => hm j (List.mem_cons_of_mem _ hj)) (h3 hc) with
        ⟨a, b, c, d⟩ | ⟨a, b⟩
      · exact .inl ⟨a, by simpa [h1] using b, c, d⟩
      · exact .inr ⟨fun ⟨x, y, z⟩ => a ⟨x, fun j hj => y j (List.mem_cons_of_mem _ hj), z⟩, b⟩
    · have h4 : parseGlobals P (i :: l) s log = parseGlobals P l { s with extras := true } log := Proc.bind_of_ok h2
      rw [h4]
      rcases parseGlobals_cases P gs is log l { s with extras := true } (fun j hj => hm j (List.mem_cons_of_mem _ hj)) hc with
        ⟨a, b, c, d⟩ | ⟨a, b⟩
      · cases a
      · exact .inr ⟨fun ⟨x, y, z⟩ => h1 (y i List.mem_cons_self), b⟩
    · refine .inr ⟨fun ⟨x, y, z⟩ => ?_, .inr (h2.bind _)⟩
      rcases h1 with h1 | h1
      · exact h1 (y i List.mem_cons_self)
      · exact z (conflict_mono l h1)

/-! ### options of the subcommands -/

/-- the option table of each subcommand -/
def table : Command → List (String × Opt)
  | .compress => [("-h", .help), ("--help", .help)] ++ compressOptions
  | .decompress => [("-h", .help), ("--help", .help)] ++ decompressOptions
  | .append => [("-h", .help), ("--help", .help)] ++ appendOptions
  | .info => [("-h", .help), ("--help", .help)]

theorem names_inj {o : String} {a b : Opt} (h : o ∈ names a) (h' : o ∈ names b) : a = b := by
  cases a <;> simp only [names, List.mem_cons, List.not_mem_nil, or_false] at h <;> rcases h with rfl | rfl <;> revert h' <;>
    cases b <;> decide

theorem tableLookup_iff (cmd : Command) (o : String) (opt : Opt) : (table cmd).lookup o = some opt ↔ opt ∈ takes cmd ∧ o ∈ names opt := by
  constructor
  · intro h
    have := mem_of_lookup h
    have hall : ∀ p ∈ table cmd, p.2 ∈ takes cmd ∧ p.1 ∈ names p.2 := by cases cmd <;> decide
    exact hall _ this
  · rintro ⟨h1, h2⟩
    have hall : ∀ opt ∈ takes cmd, ∀ o ∈ names opt, (table cmd).lookup o = some opt := by cases cmd <;> decide
    exact hall _ h1 _ h2

theorem subparsers_some {name : String} {cmd : Command} (h : (name, cmd) ∈ commands) :
    subparsers.lookup name = some (table cmd) ∧ commands.lookup name = some cmd ∧
    (optionalSecond name = true ↔ cmd = .compress ∨ cmd = .decompress) ∧ ((name = "append" ∨ name = "a") ↔ cmd = .append) := by
  simp only [commands, List.mem_cons, Prod.mk.injEq, List.not_mem_nil, or_false] at h
  rcases h with ⟨rfl, rfl⟩ | ⟨rfl, rfl⟩ | ⟨rfl, rfl⟩ | ⟨rfl, rfl⟩ | ⟨rfl, rfl⟩ | ⟨rfl, rfl⟩ | ⟨rfl, rfl⟩ | ⟨rfl, rfl⟩ <;> decide

theorem subparsers_none {name : String} (h : ∀ cmd, (name, cmd) ∉ commands) : subparsers.lookup name = none := by
  cases hl : subparsers.lookup name with
  | none => rfl
  | some t =>
    have hall : ∀ p ∈ subparsers, ∃ cmd ∈ [Command.compress, .decompress, .append, .info], (p.1, cmd) ∈ commands := by decide
    obtain ⟨cmd, -, hc⟩ := hall _ (mem_of_lookup hl)
    exact absurd hc (h cmd)

theorem suffix_isSome (c : Char) : (suffixValue c).isSome = true ↔ c ∈ "BKMGT".toList := by
  constructor
  · intro h
    obtain ⟨k, hk⟩ := Option.isSome_iff_exists.1 h
    have := (suffixValue_spec c k).2 hk
    simp only [Spec.multiplier, List.mem_cons, Prod.mk.injEq, List.not_mem_nil, or_false] at this
    rcases this with h | h | h | h | h <;> (obtain ⟨rfl, -⟩ := h; decide)
  · intro h
    have h : c ∈ ['B', 'K', 'M', 'G', 'T'] := h
    simp only [List.mem_cons, List.not_mem_nil, or_false] at h
    rcases h with rfl | rfl | rfl | rfl | rfl <;> decide

theorem reversePretty_error {v : List Char} (hne : v ≠ []) {e : Err} (h : reversePretty v = .error e) : e = .valueError ∨ e = .overflowError := by
  unfold reversePretty at h
  split at h
  · rename_i hl
    rw [List.getLast?_eq_none_iff] at hl
    exact absurd hl hne
  · split at h
    · cases h; exact .inl rfl
    · split at h
      · cases h; exact .inl rfl
      · unfold PyFloat.truncMul at h
        split at h
        · split at h
          · cases h
          · cases h; exact .inr rfl
        · cases h; exact .inr rfl
        · cases h; exact .inl rfl

theorem checkChunkSize_eq (o : String) (v : List Char) :
    (∃ n, chunkSize v = some n ∧ checkChunkSizeOption o v = Proc.pure n) ∨
    (v ≠ [] ∧ chunkSize v = none ∧ (∀ e, reversePretty v = .error e → e ≠ .overflowError) ∧
      ∃ msg : List Char, (∃ x ∈ msg, x ≠ '\n') ∧ checkChunkSizeOption o v = logError msg) ∨
    (v = [] ∧ chunkSize v = none ∧ checkChunkSizeOption o v = Proc.raise .indexError) ∨
    (chunkSize v = none ∧ reversePretty v = .error .overflowError ∧ checkChunkSizeOption o v = Proc.raise .overflowError) := by
  by_cases hmax : v = "max".toList
  · refine .inl ⟨2147483631, ?_, ?_⟩
    · unfold chunkSize; rw [if_pos hmax]
    · unfold checkChunkSizeOption; rw [if_pos hmax]; rfl
  · cases hl : v.getLast? with
    | none =>
      rw [List.getLast?_eq_none_iff] at hl
      subst hl
      exact .inr (.inr (.inl ⟨rfl, rfl, by simp [checkChunkSizeOption, Err.isValueError]⟩))
    | some c =>
      have hne : v ≠ [] := by rintro rfl; cases hl
      have hspec : ∀ r, (if c ∈ "BKMGT".toList then (reversePretty v).toOption else pyInt v) = r →
          chunkSize v = (match r with | none => none | some n => if 0 ≤ n then some n else none) := by
        intro r hr
        unfold chunkSize
        rw [if_neg hmax, hl]
        simp only [hr]
        cases r <;> rfl
      have hmodel : checkChunkSizeOption o v =
          (match (if (suffixValue c).isSome then reversePretty v else
              match pyInt v with
              | none => .error .valueError
              | some i => .ok i : Except Err Int) with
          | .error e => if e.isValueError then logError (o.toList ++ " error: ".toList ++ someMessage) else Proc.raise e
          | .ok v => if v < 0 then logError (o.toList ++ " must be > 0".toList) else Proc.pure v) := by
        unfold checkChunkSizeOption
        rw [if_neg hmax]
        simp only [hl]
        rfl
      rw [hmodel]
      have hfin : ∀ n, chunkSize v = (if 0 ≤ n then some n else none) → (∀ e, reversePretty v = .error e → e ≠ .overflowError) →
          (∃ m, chunkSize v = some m ∧ (if n < 0 then logError (o.toList ++ " must be > 0".toList) else Proc.pure n : Proc Log Int) = Proc.pure m) ∨
          (v ≠ [] ∧ chunkSize v = none ∧ (∀ e, reversePretty v = .error e → e ≠ .overflowError) ∧
            ∃ msg : List Char, (∃ x ∈ msg, x ≠ '\n') ∧
              (if n < 0 then logError (o.toList ++ " must be > 0".toList) else Proc.pure n : Proc Log Int) = logError msg) := by
        intro n hn he
        by_cases h0 : n < 0
        · rw [if_neg (by omega)] at hn
          exact .inr ⟨hne, hn, he, _, ⟨'m', by simp, by decide⟩, if_pos h0⟩
        · rw [if_pos (by omega)] at hn
          exact .inl ⟨n, hn, if_neg h0⟩
      by_cases hs : c ∈ "BKMGT".toList
      · rw [if_pos ((suffix_isSome c).2 hs)]
        have hsp := hspec _ rfl
        rw [if_pos hs] at hsp
        cases hr : reversePretty v with
        | error e =>
          rw [hr] at hsp
          have hsp : chunkSize v = none := hsp
          rcases reversePretty_error hne hr with rfl | rfl
          · exact .inr (.inl ⟨hne, hsp, fun e he => by cases he; simp, _, ⟨'r', by simp, by decide⟩, rfl⟩)
          · exact .inr (.inr (.inr ⟨hsp, rfl, by simp [Err.isValueError]⟩))
        | ok n =>
          rw [hr] at hsp
          rcases hfin n hsp (fun e he => by rw [hr] at he; cases he) with h | h
          · exact .inl h
          · rw [hr] at h; exact .inr (.inl h)
      · rw [if_neg (fun h => hs ((suffix_isSome c).1 h))]
        have hsp := hspec _ rfl
        rw [if_neg hs] at hsp
        have he : ∀ e, reversePretty v = .error e → e ≠ .overflowError := by
          intro e he
          have hsv : suffixValue c = none := by
            cases h : suffixValue c with
            | none => rfl
            | some k => exact absurd ((suffix_isSome c).1 (by rw [h]; rfl)) hs
          unfold reversePretty at he
          rw [hl] at he
          simp only [hsv] at he
          cases he
          simp
        cases hr : pyInt v with
        | none =>
          rw [hr] at hsp
          exact .inr (.inl ⟨hne, hsp, he, _, ⟨'r', by simp, by decide⟩, rfl⟩)
        | some n =>
          rw [hr] at hsp
          rcases hfin n hsp he with h | h
          · exact .inl h
          · exact .inr (.inl h)

theorem checkChunkSize_cases (P : ParserEnv) (gs is : List CliItem) (o : String) (v : List Char) (hi : CliItem.value o v ∈ is)
    (ho : o ∈ names .chunk_size) (log : Log) :
    (∃ n, chunkSize v = some n ∧ checkChunkSizeOption o v log = (.ok n, log)) ∨
    (chunkSize v = none ∧ Refuses P gs is log (checkChunkSizeOption o v log)) := by
  rcases checkChunkSize_eq o v with ⟨n, h1, h2⟩ | ⟨hne, h1, -, msg, ⟨x, hx, hx'⟩, h2⟩ | ⟨rfl, h1, h2⟩ | ⟨h1, hr, h2⟩
  · exact .inl ⟨n, h1, by rw [h2]; rfl⟩
  · refine .inr ⟨h1, ?_⟩
    obtain ⟨lines, h3, h4, h5⟩ := logError_lines (α := Int) log msg x hx hx'
    rw [h2]
    exact ⟨_, lines, h3, .chunk_size o v lines hi ho hne h1 h4 h5⟩
  · exact .inr ⟨h1, by rw [h2]; exact ⟨_, [], by simp [Proc.raise], .empty o hi ho⟩⟩
  · exact .inr ⟨h1, by rw [h2]; exact ⟨_, [], by simp [Proc.raise], .infinite o v hi ho hr⟩⟩

theorem closeA_flag {o : String} {opt : Opt} (ho : o ∈ names opt) (args : CliArgs) :
    closeA args [.flag o] =
      { args with
        blosc := { args.blosc with shuffle := if opt = .shuffle then 0 else args.blosc.shuffle }
        offsets := args.offsets && !decide (opt = .offsets)
        no_check_extension := args.no_check_extension || decide (opt = .no_check_extension) } := by
  have hsw : ∀ x, switch (names x) [.flag o] = decide (opt = x) := by
    intro x
    simp only [switch, List.any_cons, List.any_nil, Bool.or_false, decide_eq_decide]
    exact ⟨fun h => names_inj ho h, fun h => h ▸ ho⟩
  unfold closeA
  simp [hsw, setting, valuesOf]

theorem closeA_value {o : String} {opt : Opt} (ho : o ∈ names opt) (v : List Char) (args : CliArgs) :
    closeA args [.value o v] =
      { args with
        blosc :=
          { typesize := if opt = .typesize then (pyInt v).getD 0 else args.blosc.typesize
            clevel := if opt = .clevel then (pyInt v).getD 0 else args.blosc.clevel
            shuffle := args.blosc.shuffle
            cname := if opt = .cname then String.ofList v else args.blosc.cname }
        chunk_size := if opt = .chunk_size then .int ((chunkSize v).getD 0) else args.chunk_size
        checksum := if opt = .checksum then String.ofList v else args.checksum
        metadata := if opt = .metadata then some (String.ofList v) else args.metadata } := by
  have hset : ∀ {α : Type} x (d : α) (f : List Char → α), setting (names x) [.value o v] d f = if opt = x then f v else d := by
    intro α x d f
    by_cases h : opt = x
    · subst h; simp [setting, valuesOf, ho]
    · have h' : o ∉ names x := fun h' => h (names_inj ho h')
      simp [setting, valuesOf, h', h]
  unfold closeA
  simp only [hset]
  simp [switch]

theorem subOption_cases (E : Env μ) (P : ParserEnv) (gs is : List CliItem) (cmd : Command) (args : CliArgs) (i : CliItem) (hi : i ∈ is)
    (hp : positionals [i] = []) (log : Log) :
    (GoodItem E cmd i ∧ subOption E (table cmd) args i log = (.ok (some (closeA args [i])), log)) ∨
    (¬ GoodItem E cmd i ∧ subOption E (table cmd) args i log = (.ok none, log)) ∨
    (¬ GoodItem E cmd i ∧ Refuses P gs is log (subOption E (table cmd) args i log)) := by
  cases i with
  | positional n => cases hp
  | flag o =>
    cases hl : (table cmd).lookup o with
    | none =>
      refine .inr (.inl ⟨?_, by simp only [subOption, hl]; rfl⟩)
      rintro ⟨opt, h1, h2, -⟩
      rw [(tableLookup_iff cmd o opt).2 ⟨h1, h2⟩] at hl
      cases hl
    | some opt =>
      obtain ⟨h1, h2⟩ := (tableLookup_iff cmd o opt).1 hl
      have hbad : opt ∉ [Opt.shuffle, .offsets, .no_check_extension] → ¬ GoodItem E cmd (.flag o) := by
        rintro h ⟨x, -, hx, hx'⟩
        rw [names_inj hx h2] at hx'
        exact h hx'
      have he : subOption E (table cmd) args (.flag o) = (do
          let args ← setFlag args opt
          Proc.pure (some args)) := by simp only [subOption, hl]
      rw [he]
      have hok : opt ∈ [Opt.shuffle, .offsets, .no_check_extension] → setFlag args opt log = (.ok (closeA args [.flag o]), log) →
          GoodItem E cmd (.flag o) ∧ (do
            let args ← setFlag args opt
            Proc.pure (some args) : Proc Log (Option CliArgs)) log = (.ok (some (closeA args [.flag o])), log) :=
        fun h h' => ⟨⟨opt, h1, h2, h⟩, by rw [Proc.bind_of_ok h']; rfl⟩
      cases opt with
      | shuffle => exact .inl (hok (by decide) (by rw [closeA_flag h2]; simp [setFlag, Proc.pure]))
      | offsets => exact .inl (hok (by decide) (by rw [closeA_flag h2]; simp [setFlag, Proc.pure]))
      | no_check_extension => exact .inl (hok (by decide) (by rw [closeA_flag h2]; simp [setFlag, Proc.pure]))
      | help =>
        refine .inr (.inr ⟨hbad (by decide), Refuses.bind _ ⟨_, [], by simp [setFlag, printAndExit, Proc.raise], .help o (List.mem_append_right _ hi) ?_⟩⟩)
        simp only [names, List.mem_cons, List.not_mem_nil, or_false] at h2 ⊢
        rcases h2 with h | h <;> simp [h]
      | _ => exact .inr (.inr ⟨hbad (by decide), Refuses.bind _ (refuses_usage _ _ _ _)⟩)
  | value o v =>
    cases hl : (table cmd).lookup o with
    | none =>
      refine .inr (.inl ⟨?_, by simp only [subOption, hl]; rfl⟩)
      rintro ⟨opt, h1, h2, -⟩
      rw [(tableLookup_iff cmd o opt).2 ⟨h1, h2⟩] at hl
      cases hl
    | some opt =>
      obtain ⟨h1, h2⟩ := (tableLookup_iff cmd o opt).1 hl
      have hbad : ¬ ValidValue E v opt → ¬ GoodItem E cmd (.value o v) := by
        rintro h ⟨x, -, hx, hx'⟩
        rw [names_inj hx h2] at hx'
        exact h hx'
      have he : subOption E (table cmd) args (.value o v) = (do
          let args ← setValue E args o v opt
          Proc.pure (some args)) := by simp only [subOption, hl]
      rw [he]
      have hok : ValidValue E v opt → setValue E args o v opt log = (.ok (closeA args [.value o v]), log) →
          GoodItem E cmd (.value o v) ∧ (do
            let args ← setValue E args o v opt
            Proc.pure (some args) : Proc Log (Option CliArgs)) log = (.ok (some (closeA args [.value o v])), log) :=
        fun h h' => ⟨⟨opt, h1, h2, h⟩, by rw [Proc.bind_of_ok h']; rfl⟩
      have hno : ¬ ValidValue E v opt → Refuses P gs is log (setValue E args o v opt log) → ¬ GoodItem E cmd (.value o v) ∧
          Refuses P gs is log ((do
            let args ← setValue E args o v opt
            Proc.pure (some args) : Proc Log (Option CliArgs)) log) := fun h h' => ⟨hbad h, h'.bind _⟩
      rw [closeA_value h2] at hok ⊢
      cases opt with
      | typesize =>
        cases hv : pyInt v with
        | none =>
          refine .inr (.inr (hno (by rintro ⟨n, hn⟩; rw [hv] at hn; cases hn) ?_))
          simp only [setValue, hv]; exact refuses_usage _ _ _ _
        | some n => rw [hv] at hok; exact .inl (hok ⟨n, hv⟩ (by simp [setValue, hv, Proc.pure]))
      | clevel =>
        cases hv : pyInt v with
        | none =>
          refine .inr (.inr (hno (by rintro ⟨n, hn, -⟩; rw [hv] at hn; cases hn) ?_))
          simp only [setValue, hv]; exact refuses_usage _ _ _ _
        | some n =>
          by_cases hn : 0 ≤ n ∧ n ≤ 9
          · rw [hv] at hok
            refine .inl (hok ⟨n, hv, hn⟩ ?_)
            simp only [setValue, hv]
            rw [if_pos (show 0 ≤ n ∧ n ≤ MAX_CLEVEL from hn)]; simp [Proc.pure]
          · refine .inr (.inr (hno (by rintro ⟨m, hm, hm'⟩; rw [hv] at hm; cases hm; exact hn hm') ?_))
            simp only [setValue, hv]
            rw [if_neg (show ¬ (0 ≤ n ∧ n ≤ MAX_CLEVEL) from hn)]; exact refuses_usage _ _ _ _
      | cname =>
        by_cases hv : String.ofList v ∈ E.cnames
        · refine .inl (hok hv ?_)
          simp only [setValue]
          rw [if_pos hv]; simp [Proc.pure]
        · refine .inr (.inr (hno hv ?_))
          simp only [setValue]
          rw [if_neg hv]; exact refuses_usage _ _ _ _
      | checksum =>
        by_cases hv : String.ofList v ∈ checksumsAvail
        · refine .inl (hok hv ?_)
          simp only [setValue]
          rw [if_pos hv]; simp [Proc.pure]
        · refine .inr (.inr (hno hv ?_))
          simp only [setValue]
          rw [if_neg hv]; exact refuses_usage _ _ _ _
      | metadata => exact .inl (hok trivial (by simp [setValue, Proc.pure]))
      | chunk_size =>
        rcases checkChunkSize_cases P gs is o v hi h2 log with ⟨n, h3, h4⟩ | ⟨h3, h4⟩
        · refine .inl (hok ⟨n, h3⟩ ?_)
          simp only [setValue]
          rw [Proc.bind_of_ok h4, h3]; simp [Proc.pure]
        · refine .inr (.inr (hno (by rintro ⟨n, hn⟩; rw [h3] at hn; cases hn) (h4.bind _)))
      | _ => exact .inr (.inr (hno id (refuses_usage _ _ _ _)))

/-! ### the arguments of a subcommand -/

/-- argparse takes all the file names: with `q` none comes after an option that comes after a file name -/
def TakesAll (q : Bool) : Bool → Bool → List CliItem → Prop
  | _, _, [] => True
  | closed, _, .positional _ :: l => closed = false ∧ TakesAll q closed true l
  | closed, has, .flag _ :: l => TakesAll q (closed || (q && has)) has l
  | closed, has, .value _ _ :: l => TakesAll q (closed || (q && has)) has l

theorem takesAll_false : ∀ (has : Bool) (l : List CliItem), TakesAll false false has l
  | _, [] => trivial
  | _, .positional _ :: l => ⟨rfl, takesAll_false true l⟩
  | has, .flag _ :: l => takesAll_false has l
  | has, .value _ _ :: l => takesAll_false has l

theorem takesAll_closed (has : Bool) : ∀ (l : List CliItem), TakesAll true true has l ↔ positionals l = []
  | [] => by simp [TakesAll, positionals]
  | .positional _ :: l => by simp [TakesAll, positionals]
  | .flag _ :: l => by simpa [TakesAll, positionals] using takesAll_closed has l
  | .value _ _ :: l => by simpa [TakesAll, positionals] using takesAll_closed has l

theorem takesAll_has : ∀ (l : List CliItem), TakesAll true false true l ↔
    ∃ (files : List String) (b : List CliItem), l = files.map CliItem.positional ++ b ∧ positionals b = []
  | [] => by
    simp only [TakesAll, true_iff]
    exact ⟨[], [], rfl, rfl⟩
  | .positional n :: l => by
    rw [TakesAll, takesAll_has l]
    constructor
    · rintro ⟨-, files, b, rfl, hb⟩
      exact ⟨n :: files, b, rfl, hb⟩
    · rintro ⟨files, b, h, hb⟩
      cases files with
      | nil =>
        have h : CliItem.positional n :: l = b := h
        rw [← h] at hb
        simp [positionals] at hb
      | cons f files =>
        rw [List.map_cons, List.cons_append, List.cons.injEq] at h
        exact ⟨rfl, files, b, h.2, hb⟩
  | .flag o :: l => by
    rw [TakesAll]
    show TakesAll true true true l ↔ _
    rw [takesAll_closed]
    constructor
    · intro h
      exact ⟨[], _, rfl, by simpa [positionals] using h⟩
    · rintro ⟨files, b, h, hb⟩
      cases files with
      | nil =>
        have h : CliItem.flag o :: l = b := h
        rw [← h] at hb
        simpa [positionals] using hb
      | cons f files =>
        rw [List.map_cons, List.cons_append, List.cons.injEq] at h
        exact absurd h.1 (by simp)
  | .value o v :: l => by
    rw [TakesAll]
    show TakesAll true true true l ↔ _
    rw [takesAll_closed]
    constructor
    · intro h
      exact ⟨[], _, rfl, by simpa [positionals] using h⟩
    · rintro ⟨files, b, h, hb⟩
      cases files with
      | nil =>
        have h : CliItem.value o v :: l = b := h
        rw [← h] at hb
        simpa [positionals] using hb
      | cons f files =>
        rw [List.map_cons, List.cons_append, List.cons.injEq] at h
        exact absurd h.1 (by simp)

theorem together_cons {i : CliItem} (hi : positionals [i] = []) (l : List CliItem) : Together (i :: l) ↔ Together l := by
  constructor
  · rintro ⟨a, files, b, h, ha, hb⟩
    cases a with
    | cons x a =>
      rw [List.cons_append, List.cons_append, List.cons.injEq] at h
      refine ⟨a, files, b, h.2, ?_, hb⟩
      rw [positionals_cons] at ha
      exact (List.append_eq_nil_iff.1 ha).2
    | nil =>
      cases files with
      | cons f files =>
        rw [List.nil_append, List.map_cons, List.cons_append, List.cons.injEq] at h
        rw [h.1] at hi
        cases hi
      | nil =>
        have h : i :: l = b := h
        rw [← h, positionals_cons] at hb
        exact ⟨[], [], l, rfl, rfl, (List.append_eq_nil_iff.1 hb).2⟩
  · rintro ⟨a, files, b, rfl, ha, hb⟩
    refine ⟨i :: a, files, b, rfl, ?_, hb⟩
    rw [positionals_cons, hi, ha]; rfl

theorem takesAll_iff : ∀ (l : List CliItem), TakesAll true false false l ↔ Together l
  | [] => by
    simp only [TakesAll, true_iff]
    exact ⟨[], [], [], rfl, rfl, rfl⟩
  | .positional n :: l => by
    rw [TakesAll, takesAll_has]
    constructor
    · rintro ⟨-, files, b, rfl, hb⟩
      exact ⟨[], n :: files, b, rfl, rfl, hb⟩
    · rintro ⟨a, files, b, h, ha, hb⟩
      refine ⟨rfl, ?_⟩
      cases a with
      | cons x a =>
        rw [List.cons_append, List.cons_append, List.cons.injEq] at h
        rw [← h.1] at ha
        simp [positionals] at ha
      | nil =>
        cases files with
        | nil =>
          have h : CliItem.positional n :: l = b := h
          rw [← h] at hb
          simp [positionals] at hb
        | cons f files =>
          rw [List.nil_append, List.map_cons, List.cons_append, List.cons.injEq] at h
          exact ⟨files, b, h.2, hb⟩
  | .flag o :: l => by
    rw [together_cons rfl, ← takesAll_iff l]
    rfl
  | .value o v :: l => by
    rw [together_cons rfl, ← takesAll_iff l]
    rfl

theorem parseCliItems_option (E : Env μ) (P : ParserEnv) (sub : String) (options : List (String × Opt)) (i : CliItem) (l : List CliItem)
    (s : Parsed) (hp : positionals [i] = []) :
    parseCliItems E P sub options (i :: l) s = (do
      let r ← subOption E options s.args i
      parseCliItems E P sub options l
        { s with
          args := r.getD s.args
          extras := s.extras || r.isNone
          closed := s.closed || (P.eager && optionalSecond sub && s.positionals ≠ []) }) := by
  cases i with
  | positional n => cases hp
  | flag o => rfl
  | value o v => rfl

theorem takesAll_option (q closed has : Bool) (i : CliItem) (l : List CliItem) (hp : positionals [i] = []) :
    TakesAll q closed has (i :: l) = TakesAll q (closed || (q && has)) has l := by
  cases i with
  | positional n => cases hp
  | flag o => rfl
  | value o v => rfl

theorem parseCliItems_cases (E : Env μ) (P : ParserEnv) (gs is : List CliItem) (sub : String) (cmd : Command) (log : Log) :
    ∀ (l : List CliItem) (s : Parsed), (∀ i ∈ l, i ∈ is) →
    (s.extras = false ∧ (∀ i ∈ l, GoodItem E cmd i) ∧ TakesAll (P.eager && optionalSecond sub) s.closed (s.positionals ≠ []) l ∧
      ∃ closed, parseCliItems E P sub (table cmd) l s log =
        (.ok { s with args := closeA s.args l, positionals := s.positionals ++ positionals l, closed := closed }, log)) ∨
    (¬ (s.extras = false ∧ (∀ i ∈ l, GoodItem E cmd i) ∧ TakesAll (P.eager && optionalSecond sub) s.closed (s.positionals ≠ []) l) ∧
      ((∃ s', parseCliItems E P sub (table cmd) l s log = (.ok s', log) ∧ s'.extras = true) ∨
        Refuses P gs is log (parseCliItems E P sub (table cmd) l s log)))
  | [], s, _ => by
    have h : closeA s.args [] = s.args := by unfold closeA; simp [switch, setting, valuesOf]
    cases he : s.extras with
    | false => exact .inl ⟨rfl, by simp, trivial, s.closed, by rw [h, ← he]; simp [parseCliItems, Proc.pure, positionals]⟩
    | true => exact .inr ⟨by simp, .inl ⟨s, rfl, he⟩⟩
  | i :: l, s, hm => by
    have hrest : ∀ j ∈ l, j ∈ is := fun j hj => hm j (List.mem_cons_of_mem _ hj)
    by_cases hp : positionals [i] = []
    · rw [parseCliItems_option _ _ _ _ _ _ _ hp, takesAll_option _ _ _ _ _ hp, closeA_cons, positionals_cons, hp, List.nil_append]
      rcases subOption_cases E P gs is cmd s.args i (hm i List.mem_cons_self) hp log with ⟨h1, h2⟩ | ⟨h1, h2⟩ | ⟨h1, h2⟩
      · rw [Proc.bind_of_ok h2]
        rcases parseCliItems_cases E P gs is sub cmd log l
            { s with
              args := closeA s.args [i]
              extras := s.extras || false
              closed := s.closed || (P.eager && optionalSecond sub && s.positionals ≠ []) } hrest with ⟨a, b, c, closed, d⟩ | ⟨a, b⟩
        · refine .inl ⟨by simpa using a, by simpa [h1] using b, c, closed, ?_⟩
          refine d.trans ?_
          simp
        · refine .inr ⟨fun ⟨x, y, z⟩ => a ⟨by simpa using x, fun j hj => y j (List.mem_cons_of_mem _ hj), z⟩, b⟩
      · rw [Proc.bind_of_ok h2]
        refine .inr ⟨fun ⟨x, y, z⟩ => h1 (y i List.mem_cons_self), ?_⟩
        rcases parseCliItems_cases E P gs is sub cmd log l
            { s with
              args := s.args
              extras := s.extras || true
              closed := s.closed || (P.eager && optionalSecond sub && s.positionals ≠ []) } hrest with ⟨a, b, c, closed, d⟩ | ⟨a, b⟩
        · simp at a
        · exact b
      · exact .inr ⟨fun ⟨x, y, z⟩ => h1 (y i List.mem_cons_self), .inr (h2.bind _)⟩
    · cases i with
      | flag o => exact absurd rfl hp
      | value o v => exact absurd rfl hp
      | positional n =>
        have hA : closeA s.args (.positional n :: l) = closeA s.args l := by
          rw [closeA_cons]
          congr 1
          unfold closeA
          simp [switch, setting, valuesOf]
        rw [hA, parseCliItems, TakesAll]
        by_cases hc : s.closed = false
        · rw [if_neg (by rw [hc]; decide)]
          rcases parseCliItems_cases E P gs is sub cmd log l { s with positionals := s.positionals ++ [n] } hrest with
            ⟨a, b, c, closed, d⟩ | ⟨a, b⟩
          · refine .inl ⟨a, by simpa [GoodItem] using b, ⟨hc, ?_⟩, closed, ?_⟩
            · simpa [hc] using c
            · refine d.trans ?_
              simp [positionals]
          · refine .inr ⟨fun ⟨x, y, z⟩ => a ⟨x, fun j hj => y j (List.mem_cons_of_mem _ hj), ?_⟩, b⟩
            simpa [hc] using z.2
        · rw [if_pos (by simpa using hc)]
          refine .inr ⟨fun ⟨x, y, z⟩ => hc z.1, ?_⟩
          rcases parseCliItems_cases E P gs is sub cmd log l { s with extras := true } hrest with ⟨a, b, c, closed, d⟩ | ⟨a, b⟩
          · cases a
          · exact b

/-! ### the whole command line -/

theorem counts_one {cmd : Command} {n : Nat} (h : Counts cmd n) : n = 1 ∨ n = 2 := by
  cases cmd <;> simp only [Counts] at h <;> omega

theorem assignPositionals_cases {name : String} {cmd : Command} (hn : (name, cmd) ∈ commands) (s : Parsed) (he : s.extras = false)
    (ho : s.args.out_file = none) (log : Log) :
    (Counts cmd s.positionals.length ∧ assignPositionals name s log = (.ok { s with args := withFiles s.args cmd s.positionals }, log)) ∨
    (¬ Counts cmd s.positionals.length ∧ assignPositionals name s log = (usageError : Proc Log Parsed) log) := by
  obtain ⟨-, -, h1, h2⟩ := subparsers_some hn
  unfold assignPositionals
  rw [if_neg (by rw [he]; decide)]
  by_cases hopt : optionalSecond name = true
  · rw [if_pos hopt]
    rcases h1.1 hopt with rfl | rfl
    all_goals
      rcases hl : s.positionals with ⟨⟩ | ⟨i, ⟨⟩ | ⟨o, ⟨⟩ | ⟨x, l⟩⟩⟩
      · exact .inr ⟨by simp [Counts], rfl⟩
      · refine .inl ⟨by simp [Counts], ?_⟩
        simp only [withFiles, Proc.pure]
        simp [ho, hl]
      · refine .inl ⟨by simp [Counts], ?_⟩
        simp only [withFiles, Proc.pure]
        simp [hl]
      · exact .inr ⟨by simp [Counts], rfl⟩
  · rw [if_neg hopt]
    by_cases happ : name = "append" ∨ name = "a"
    · rw [if_pos happ]
      obtain rfl := h2.1 happ
      rcases hl : s.positionals with ⟨⟩ | ⟨i, ⟨⟩ | ⟨o, ⟨⟩ | ⟨x, l⟩⟩⟩
      · exact .inr ⟨by simp [Counts], rfl⟩
      · exact .inr ⟨by simp [Counts], rfl⟩
      · refine .inl ⟨by simp [Counts], ?_⟩
        simp only [withFiles, Proc.pure]
        simp [hl]
      · exact .inr ⟨by simp [Counts], rfl⟩
    · rw [if_neg happ]
      have hcmd : cmd = .info := by
        cases cmd with
        | compress => exact absurd (h1.2 (.inl rfl)) hopt
        | decompress => exact absurd (h1.2 (.inr rfl)) hopt
        | append => exact absurd (h2.2 rfl) happ
        | info => rfl
      subst hcmd
      rcases hl : s.positionals with ⟨⟩ | ⟨i, ⟨⟩ | ⟨o, l⟩⟩
      · exact .inr ⟨by simp [Counts], rfl⟩
      · refine .inl ⟨by simp [Counts], ?_⟩
        simp only [withFiles, Proc.pure]
        simp [hl]
      · exact .inr ⟨by simp [Counts], rfl⟩

/-- what follows the subcommand -/
def itemsOf (c : CommandLine) : List CliItem := (c.subcommand.map Prod.snd).getD []

theorem parseArgs_cases (E : Env μ) (P : ParserEnv) (c : CommandLine) (log : Log) :
    (Accepted E P c ∧ ∃ s, parseArgs E P c log = (.ok s, log) ∧ s.args = settings c ∧
      s.nthreads = setting (globalNames .nthreads) c.globals P.ncores (fun v => (pyInt v).getD 0)) ∨
    (¬ Accepted E P c ∧ Refuses P c.globals (itemsOf c) log (parseArgs E P c log)) := by
  have hstart : ¬ Conflict { nthreads := P.ncores } := by rintro ⟨h, -⟩; cases h
  have hconf : Conflict (closeG { nthreads := P.ncores } c.globals) ↔
      (switch (globalNames .verbose) c.globals = true ∧ switch (globalNames .debug) c.globals = true) := by
    unfold Conflict closeG
    simp
  unfold parseArgs
  rcases parseGlobals_cases P c.globals (itemsOf c) log c.globals { nthreads := P.ncores } (fun _ h => h) hstart with
    ⟨-, h1, h2, h3⟩ | ⟨h1, h2⟩
  · rw [Proc.bind_of_ok h3]
    rw [hconf] at h2
    cases hs : c.subcommand with
    | none =>
      refine .inl ⟨⟨h1, h2, fun name items h => by rw [hs] at h; cases h⟩, _, rfl, ?_, rfl⟩
      unfold settings
      rw [hs]
      simp [closeG]
    | some p =>
      obtain ⟨name, items⟩ := p
      have hitems : itemsOf c = items := by unfold itemsOf; rw [hs]; rfl
      rw [hitems]
      simp only
      by_cases hname : ∃ cmd, (name, cmd) ∈ commands
      · obtain ⟨cmd, hcmd⟩ := hname
        obtain ⟨ht, hcl, hopt, -⟩ := subparsers_some hcmd
        have huniq : ∀ cmd', (name, cmd') ∈ commands → cmd' = cmd := by
          intro cmd' h'
          have := (subparsers_some h').2.1
          rw [hcl] at this
          cases this; rfl
        rw [ht]
        simp only
        have hq : TakesAll (P.eager && optionalSecond name) false false items ↔
            (P.eager = true → cmd = .compress ∨ cmd = .decompress → Together items) := by
          cases he : P.eager with
          | false => simp [takesAll_false]
          | true =>
            cases ho : optionalSecond name with
            | false =>
              rw [ho] at hopt
              simp only [Bool.and_false, takesAll_false, true_iff]
              intro _ h
              exact absurd (hopt.2 h) (by decide)
            | true =>
              rw [Bool.and_self, takesAll_iff]
              exact ⟨fun h _ _ => h, fun h => h rfl (hopt.1 ho)⟩
        have hacc : Accepted E P c ↔ (∀ i ∈ items, GoodItem E cmd i) ∧ Counts cmd (positionals items).length ∧
            (P.eager = true → cmd = .compress ∨ cmd = .decompress → Together items) := by
          constructor
          · rintro ⟨-, -, h⟩
            obtain ⟨cmd', g1, g2⟩ := h name items hs
            rw [huniq cmd' g1] at g2
            exact g2
          · intro h
            refine ⟨h1, h2, fun name' items' h' => ?_⟩
            rw [hs] at h'
            cases h'
            exact ⟨cmd, hcmd, h⟩
        rw [hacc]
        rcases parseCliItems_cases E P c.globals items name cmd log items
            { closeG { nthreads := P.ncores } c.globals with
              args := { (closeG { nthreads := P.ncores } c.globals).args with subcommand := some name } } (fun _ h => h) with
          ⟨-, g1, g2, closed, g3⟩ | ⟨g1, g2⟩
        · rw [Proc.bind_of_ok g3]
          have g2 := hq.1 g2
          rcases assignPositionals_cases hcmd
              { closeG { nthreads := P.ncores } c.globals with
                args := closeA { (closeG { nthreads := P.ncores } c.globals).args with subcommand := some name } items
                positionals := [] ++ positionals items
                closed := closed } rfl rfl log with ⟨k1, k2⟩ | ⟨k1, k2⟩
          · refine .inl ⟨⟨g1, k1, g2⟩, _, k2, ?_, rfl⟩
            unfold settings
            rw [hs]
            simp only [hcl]
            show withFiles _ cmd (positionals items) = _
            congr 1
          · refine .inr ⟨fun h => k1 h.2.1, ?_⟩
            refine Eq.mpr (congrArg _ k2) (refuses_usage _ _ _ _)
        · refine .inr ⟨fun h => g1 ⟨rfl, h.1, hq.2 h.2.2⟩, ?_⟩
          rcases g2 with ⟨s', g2, g3⟩ | g2
          · rw [Proc.bind_of_ok g2]
            unfold assignPositionals
            rw [if_pos g3]
            exact refuses_usage _ _ _ _
          · exact g2.bind _
      · rw [subparsers_none (fun cmd h => hname ⟨cmd, h⟩)]
        refine .inr ⟨?_, refuses_usage _ _ _ _⟩
        rintro ⟨-, -, h⟩
        obtain ⟨cmd, h, -⟩ := h name items hs
        exact hname ⟨cmd, h⟩
  · have hno : ¬ Accepted E P c := fun h => h1 ⟨rfl, h.1, fun h' => h.2.1 (hconf.1 h')⟩
    refine .inr ⟨hno, ?_⟩
    rcases h2 with ⟨s', h2, h3⟩ | h2
    · rw [Proc.bind_of_ok h2]
      cases hs : c.subcommand with
      | none =>
        simp only
        rw [if_pos h3]
        exact refuses_usage _ _ _ _
      | some p =>
        obtain ⟨name, items⟩ := p
        have hitems : itemsOf c = items := by unfold itemsOf; rw [hs]; rfl
        rw [hitems]
        simp only
        by_cases hname : ∃ cmd, (name, cmd) ∈ commands
        · obtain ⟨cmd, hcmd⟩ := hname
          rw [(subparsers_some hcmd).1]
          simp only
          rcases parseCliItems_cases E P c.globals items name cmd log items { s' with args := { s'.args with subcommand := some name } }
              (fun _ h => h) with ⟨g1, -, -, -, -⟩ | ⟨-, g2⟩
          · rw [show s'.extras = false from g1] at h3; cases h3
          · rcases g2 with ⟨s'', g2, g3⟩ | g2
            · rw [Proc.bind_of_ok g2]
              unfold assignPositionals
              rw [if_pos g3]
              exact refuses_usage _ _ _ _
            · exact g2.bind _
        · rw [subparsers_none (fun cmd h => hname ⟨cmd, h⟩)]
          exact refuses_usage _ _ _ _
    · exact h2.bind _

theorem pyInt_digits (ds : List Char) (hd : ∀ c ∈ ds, c.isDigit = true) (hne : ds ≠ []) :
    pyInt ds = some (Spec.decimal ds : Int) ∧ pyInt ('-' :: ds) = some (-(Spec.decimal ds : Int)) := by
  have hplain : ∀ c ∈ ds, c ≠ '_' ∧ isPySpace c = false ∧ c ≠ '-' ∧ c ≠ '+' := by
    intro c hc
    have h := hd c hc
    obtain ⟨h1, h2, -, -⟩ := plainChar_facts (.inl h : plainChar c)
    refine ⟨h2, h1, ?_, ?_⟩ <;> (rintro rfl; revert h; decide)
  have htake : takeDigits ds 0 0 = (Spec.decimal ds, ds.length, []) := by
    have := takeDigits_all ds [] hd (by simp) 0 0
    rw [List.append_nil, Nat.zero_add] at this
    exact this
  have hlen : ds.length ≠ 0 := fun h => hne (List.length_eq_zero_iff.1 h)
  constructor
  · unfold pyInt
    rw [stripSpaces_none ds (fun c hc => (hplain c hc).2.1), dropUnderscores_none ds none (by simp) (fun c hc => (hplain c hc).1)]
    simp only
    rw [takeSign_digits ds (fun c hc => (hplain c (List.mem_of_mem_head? hc)).2.2), htake]
    simp [hlen]
  · unfold pyInt
    rw [stripSpaces_none ('-' :: ds) (by
        intro c hc
        rcases List.mem_cons.1 hc with rfl | hc
        · decide
        · exact (hplain c hc).2.1),
      dropUnderscores_none ('-' :: ds) none (by simp) (by
        intro c hc
        rcases List.mem_cons.1 hc with rfl | hc
        · decide
        · exact (hplain c hc).1)]
    simp only [takeSign]
    rw [htake]
    simp [hlen]

end Bloscpack
