import Verif.Spec.Session
import Verif.Props.Options
import Verif.Props.CliAppend
/-
C73, C74: which files `blpk` writes to, and sessions of command lines.
-/
namespace Bloscpack
open Spec
variable {μ : Type}

/-- what the settings of an accepted command line with a subcommand are -/
theorem settings_of {E : Env μ} {P : ParserEnv} {c : CommandLine} {name : String} {items : List CliItem} {cmd : Command}
    (hs : c.subcommand = some (name, items)) (hcmd : (name, cmd) ∈ commands) :
    settings c = withFiles (commandSettings
      { verbose := switch (globalNames .verbose) c.globals, debug := switch (globalNames .debug) c.globals,
        force := switch (globalNames .force) c.globals, subcommand := some name } items) cmd (positionals items) := by
  have : commands.lookup name = some cmd := by
    simp only [commands, List.mem_cons, Prod.mk.injEq, List.not_mem_nil, or_false] at hcmd
    rcases hcmd with ⟨rfl, rfl⟩ | ⟨rfl, rfl⟩ | ⟨rfl, rfl⟩ | ⟨rfl, rfl⟩ | ⟨rfl, rfl⟩ | ⟨rfl, rfl⟩ | ⟨rfl, rfl⟩ | ⟨rfl, rfl⟩ <;> decide
  unfold settings
  rw [hs]
  simp only [this]

theorem withFiles_subcommand (args : CliArgs) (cmd : Command) (l : List String) : (withFiles args cmd l).subcommand = args.subcommand := by
  cases cmd <;> rfl

theorem length_two {l : List String} (h : l.length = 2) : ∃ a b, l = [a, b] := by
  match l, h with
  | [a, b], _ => exact ⟨a, b, rfl⟩

theorem two_of {l : List String} (h : l.length = 1 ∨ l.length = 2) : (∃ a, l = [a]) ∨ ∃ a b, l = [a, b] := by
  rcases h with h | h
  · obtain ⟨a, rfl⟩ := List.length_eq_one_iff.1 h; exact .inl ⟨a, rfl⟩
  · obtain ⟨a, b, rfl⟩ := length_two h; exact .inr ⟨a, b, rfl⟩

/-- C73: whatever the command line, whatever the outcome: `blpk` changes no other file than the output of `compress` and
`decompress` and the archive given to `append`. -/
theorem C73_only_output (E : Env μ) (S : Shown μ) (P : ParserEnv) (prog : List Char) (c : CommandLine) (fs : FS) (x : String)
    (hx : ¬ MayWrite c x) : (blpkMain E S P prog c fs).2.fs.files x = fs.files x := by
  by_cases hacc : Accepted E P c
  · rw [C72_accepted E S P prog c fs hacc]
    cases hs : c.subcommand with
    | none =>
      rw [blpk_fs]
      have : settings c =
          { verbose := switch (globalNames .verbose) c.globals, debug := switch (globalNames .debug) c.globals,
            force := switch (globalNames .force) c.globals } := by
        unfold settings; rw [hs]
      rw [this]
      rfl
    | some p =>
      obtain ⟨name, items⟩ := p
      obtain ⟨cmd, h1, h2, h3, -⟩ := hacc.2.2 name items hs
      have hset := settings_of (E := E) (P := P) hs h1
      have hsub : (settings c).subcommand = some name := by rw [hset, withFiles_subcommand]; rfl
      generalize hargs : settings c = args at hset hsub ⊢
      cases cmd with
      | compress =>
        have hname : name = "compress" ∨ name = "c" := by
          simpa [commands] using h1
        have hcmd : IsCompress args := by
          unfold IsCompress; rw [hsub]; rcases hname with rfl | rfl <;> simp
        rw [blpk_fs, cliMain_compress E S hcmd]
        refine compress_frame E args _ x ?_
        rintro rfl
        apply hx
        rcases two_of h3 with ⟨a, h4⟩ | ⟨a, b, h4⟩
        · have hi : args.in_file = a ∧ args.out_file = none := by rw [hset, h4]; exact ⟨rfl, rfl⟩
          rw [(compressionOut_eq args).1 hi.2, hi.1]
          exact .compress name items a hs hname (.inl h4)
        · have hi : args.in_file = a ∧ args.out_file = some b := by rw [hset, h4]; exact ⟨rfl, rfl⟩
          by_cases hb : b = ""
          · subst hb
            have : compressionOut args = a ++ ".blp" := by
              unfold compressionOut orElseName
              rw [hi.1, hi.2, ofList_append_ext]; rfl
            rw [this]
            exact .compress name items a hs hname (.inr h4)
          · rw [(compressionOut_eq args).2 b hi.2 hb]
            exact .named name items a b hs (by rcases hname with h | h <;> simp [h]) h4
      | decompress =>
        have hname : name = "decompress" ∨ name = "d" := by
          simpa [commands] using h1
        have hcmd : IsDecompress args := by
          unfold IsDecompress; rw [hsub]; rcases hname with rfl | rfl <;> simp
        rw [blpk_fs, cliMain_decompress E S hcmd]
        rcases decompressionOut_cases args with ⟨out, ho⟩ | ⟨msg, ho⟩
        · refine decompress_frame E S args _ out (ho _) x ?_
          rintro rfl
          apply hx
          have ho := ho {}
          unfold decompressionOut at ho
          rcases two_of h3 with ⟨a, h4⟩ | ⟨a, b, h4⟩
          · have hi : args.in_file = a ∧ args.out_file = none := by rw [hset, h4]; exact ⟨rfl, rfl⟩
            rw [hi.1, hi.2] at ho
            split at ho
            · exact absurd ho (by simp [logError, Proc.bind, Bind.bind, Proc.raise])
            · split at ho
              · rename_i he
                obtain ⟨F, rfl⟩ := (endsWith_iff _).1 he
                rw [strip_ext] at ho
                cases ho
                exact .decompress name items F hs hname (.inl h4)
              · exact absurd ho (by simp [logError, Proc.bind, Bind.bind, Proc.raise])
          · have hi : args.in_file = a ∧ args.out_file = some b := by rw [hset, h4]; exact ⟨rfl, rfl⟩
            have hb' : MayWrite c b := .named name items a b hs (by rcases hname with h | h <;> simp [h]) h4
            rw [hi.1, hi.2] at ho
            split at ho
            · cases ho; exact hb'
            · split at ho
              · rename_i he
                obtain ⟨F, rfl⟩ := (endsWith_iff _).1 he
                by_cases hb : b = ""
                · subst hb
                  unfold orElseName at ho
                  simp only [if_true] at ho
                  rw [strip_ext] at ho
                  cases ho
                  exact .decompress name items _ hs hname (.inr h4)
                · unfold orElseName at ho
                  simp only [if_neg hb] at ho
                  cases ho
                  exact hb'
              · exact absurd ho (by simp [logError, Proc.bind, Bind.bind, Proc.raise])
        · rw [cliDecompress_refused E S args _ msg ho]; rfl
      | append =>
        have hname : name = "append" ∨ name = "a" := by
          simpa [commands] using h1
        have hcmd : IsAppend args := by
          unfold IsAppend; rw [hsub]; rcases hname with rfl | rfl <;> simp
        obtain ⟨a, b, h4⟩ := length_two h3
        have hi : args.original_file = a := by rw [hset, h4]; rfl
        refine C54_only_original E S prog args fs hcmd x ?_
        rintro rfl
        apply hx
        rw [hi]
        exact .append name items a b hs hname h4
      | info =>
        have hname : name = "info" ∨ name = "i" := by
          simpa [commands] using h1
        have hcmd : IsInfo args := by
          unfold IsInfo; rw [hsub]; rcases hname with rfl | rfl <;> simp
        rw [C53_info_readonly E S prog args fs hcmd]
  · obtain ⟨e, -, h, -⟩ := C72_refused E S P prog c fs hacc
    rw [h]

/-- `blpk info` writes to no file. -/
theorem info_writes_nothing {c : CommandLine} {name : String} {items : List CliItem} {x : String} (hs : c.subcommand = some (name, items))
    (hname : name = "info" ∨ name = "i") : ¬ MayWrite c x := by
  intro h
  cases h with
  | compress _ _ _ hc h => rw [hs] at hc; cases hc; rcases hname with rfl | rfl <;> (revert h; decide)
  | decompress _ _ _ hc h => rw [hs] at hc; cases hc; rcases hname with rfl | rfl <;> (revert h; decide)
  | named _ _ _ _ hc h => rw [hs] at hc; cases hc; rcases hname with rfl | rfl <;> (revert h; decide)
  | append _ _ _ _ hc h => rw [hs] at hc; cases hc; rcases hname with rfl | rfl <;> (revert h; decide)

/-- one run of `blpk append` -/
theorem session_append {E : Env μ} (L : E.Laws) (S : Shown μ) (P : ParserEnv) (prog : List Char) {O : String} {F : File μ}
    (hF : F.Conforming E) (hnn : F.NoNull) {d' : Bytes} (r : AppendRun μ) (c : CommandLine) (fs : FS) (name : String)
    (items : List CliItem) (N : String) (hd : fs.files O = some (F.bytes E)) (hc : c.subcommand = some (name, items))
    (hname : name = "append" ∨ name = "a") (hfiles : positionals items = [O, N]) (hnew : r.new = (fs.files N).getD [])
    (hsize : (F.bytes E).length + 100 * r.new.length < 2 ^ 62)
    (hok : r.ok = true ↔ (blpkMain E S P prog c fs).1 = .ok ())
    (hm : r.withMetadata = true ↔ valuesOf ["-m", "--metadata"] items ≠ [])
    (hwant : match (valuesOf ["-m", "--metadata"] items).getLast? with
      | none => r.want = none
      | some file => ∀ content x, fs.files (String.ofList file) = some content → E.loads (stripBytes content) = .ok x → r.want = x)
    (hd' : (blpkMain E S P prog c fs).2.fs.files O = some d') :
    ∃ F' : File μ, F'.Conforming E ∧ F'.NoNull ∧ d' = F'.bytes E ∧ r.Effect (F.data, F.metadata) (F'.data, F'.metadata) := by
  have hfail : (blpkMain E S P prog c fs).1 ≠ .ok () → (blpkMain E S P prog c fs).2.fs.files O = fs.files O →
      ∃ F' : File μ, F'.Conforming E ∧ F'.NoNull ∧ d' = F'.bytes E ∧ r.Effect (F.data, F.metadata) (F'.data, F'.metadata) := by
    intro h1 h2
    rw [h2, hd] at hd'
    cases hd'
    refine ⟨F, hF, hnn, rfl, ?_⟩
    have : r.ok = false := by
      cases hr : r.ok with
      | false => rfl
      | true => exact absurd (hok.1 hr) h1
    unfold AppendRun.Effect
    rw [this]
    exact .inl rfl
  by_cases hacc : Accepted E P c
  · have hset := settings_of (E := E) (P := P) (cmd := .append) hc (by rcases hname with rfl | rfl <;> decide)
    rw [C72_accepted E S P prog c fs hacc] at hok hd' hfail
    have hcmd : IsAppend (settings c) := by
      unfold IsAppend
      rw [hset, withFiles_subcommand]
      rcases hname with rfl | rfl
      · exact .inl rfl
      · exact .inr rfl
    have ho : (settings c).original_file = O := by rw [hset, hfiles]; rfl
    have hn : (settings c).new_file = N := by rw [hset, hfiles]; rfl
    have hmd : (settings c).metadata = setting ["-m", "--metadata"] items none (fun v => some (String.ofList v)) := by
      rw [hset]; rfl
    generalize settings c = args at *
    cases hN : fs.files N with
    | none =>
      obtain ⟨h1, h2, -⟩ := C54_refused E S prog args fs hcmd (.inr (.inr (by rw [hn]; exact hN)))
      exact hfail (by rw [h1]; exact nofun) (by rw [h2])
    | some new =>
      rw [hN] at hnew
      have hnew : r.new = new := hnew
      rw [hnew] at hsize
      obtain ⟨F', k1, k2, k3, k4⟩ := append_step L S prog args fs hcmd hF hnn (by rw [ho]; exact hd) (by rw [hn]; exact hN) hsize
      rw [ho, hd'] at k3
      cases k3
      refine ⟨F', k1, k2, rfl, ?_⟩
      unfold AppendRun.Effect
      rcases k4 with ⟨h1, h2, want, h3, h4⟩ | ⟨h1, h2, h3⟩
      · rw [hok.2 h1, if_pos rfl, h2, h4, hnew]
        have : r.want = want := by
          unfold setting at hmd
          cases hv : (valuesOf ["-m", "--metadata"] items).getLast? with
          | none =>
            rw [hv] at hwant hmd
            rcases h3 with ⟨-, h3⟩ | ⟨_, _, h3, -⟩
            · rw [h3]; exact hwant
            · rw [h3] at hmd; cases hmd
          | some file =>
            rw [hv] at hwant hmd
            rcases h3 with ⟨h3, -⟩ | ⟨n, content, h3, h5, h6⟩
            · rw [h3] at hmd; cases hmd
            · rw [h3] at hmd
              cases hmd
              exact hwant _ _ h5 h6
        rw [this]
      · have : r.ok = false := by
          cases hr : r.ok with
          | false => rfl
          | true => exact absurd (hok.1 hr) h1
        rw [this, if_neg (by decide), h2]
        rcases h3 with h3 | ⟨h3, h4⟩
        · rw [h3]; exact .inl rfl
        · rw [h4, hnew]
          refine .inr ⟨hm.2 fun h5 => h3 ?_, rfl⟩
          rw [hmd]
          unfold setting
          rw [h5]; rfl
  · obtain ⟨e, h1, h2, -⟩ := C72_refused E S P prog c fs hacc
    exact hfail (by rw [h1]; exact nofun) (by rw [h2])

theorem session_kept {E : Env μ} (L : E.Laws) (S : Shown μ) (P : ParserEnv) (prog : List Char) {O : String} {d d' : Bytes}
    {l : List (AppendRun μ)} (h : Session E S P prog O d l d') :
    ∀ F : File μ, d = F.bytes E → F.Conforming E → F.NoNull →
      ∃ F' : File μ, d' = F'.bytes E ∧ F'.Conforming E ∧ F'.NoNull ∧ Effects l (F.data, F.metadata) (F'.data, F'.metadata) := by
  induction h with
  | nil d => exact fun F hd hc hnn => ⟨F, hd, hc, hnn, rfl⟩
  | @other d d' d'' l c fs hd hc hd' rest ih =>
    intro F hF hc' hnn
    rw [C73_only_output E S P prog c fs O hc, hd] at hd'
    cases hd'
    exact ih F hF hc' hnn
  | @append d d' d'' l r c fs name items N hd hc hname hfiles hN hnew hsize hok hm hwant hd' rest ih =>
    rintro F rfl hc' hnn
    obtain ⟨F1, h1, h2, h3, h4⟩ := session_append L S P prog hc' hnn r c fs name items N hd hc hname hfiles hnew hsize hok hm hwant hd'
    obtain ⟨F2, h5, h6, h7, h8⟩ := ih F1 h3 h1 h2
    exact ⟨F2, h5, h6, h7, _, h4, h8⟩

/-- C74: `blpk compress` succeeded, with whatever options, and wrote the archive `O`. After any session of command lines, some of
them appends to `O`, with whatever options, successful or not, the others not writing to `O`, the archive unpacks to what the file held when it
was compressed, followed by what was appended, and to the metadata last stored. -/
theorem C74_session (E : Env μ) (L : E.Laws) (S : Shown μ) (P : ParserEnv) (prog : List Char) (c : CommandLine) (fs : FS)
    (name : String) (items : List CliItem) (inp O : String) (hacc : Accepted E P c) (hs : c.subcommand = some (name, items))
    (hcmd : name = "compress" ∨ name = "c")
    (hfiles : (positionals items = [inp] ∧ O = inp ++ ".blp") ∨ (positionals items = [inp, O] ∧ O ≠ "" ∧ O ≠ inp))
    (hok : (blpkMain E S P prog c fs).1 = .ok ())
    (d : Bytes) (hd : (blpkMain E S P prog c fs).2.fs.files O = some d) (l : List (AppendRun μ)) (d' : Bytes)
    (hsession : Session E S P prog O d l d') :
    ∃ data md, fs.files inp = some data ∧
      (match (valuesOf ["-m", "--metadata"] items).getLast? with
        | none => md = none
        | some file => ∃ content, fs.files (String.ofList file) = some content ∧ E.loads (stripBytes content) = .ok md) ∧
      ∃ now, Effects l (data, md) now ∧ unpackBytesFromBytes E d' = .ok now := by
  obtain ⟨data, packed, md, h1, h2, h3, h4, h5⟩ := C71_compress E L S P prog c fs name items inp O hacc hs hcmd hfiles hok
  rw [h2] at hd
  cases hd
  obtain ⟨F, hF, hc, hnn, hfd, hfm, -, -⟩ := packed_appendable E L _ _ _ _ _ _ _ h5
  obtain ⟨F', k1, k2, -, k4⟩ := session_kept L S P prog hsession F hF hc hnn
  refine ⟨data, md, h1, ?_, (F'.data, F'.metadata), ?_, ?_⟩
  · cases hv : (valuesOf ["-m", "--metadata"] items).getLast? with
    | none => exact h3 (List.getLast?_eq_none_iff.1 hv)
    | some file => exact h4 file hv
  · rw [← hfd, ← hfm]; exact k4
  · rw [k1]; exact unpack_conforming L k2.toValid

/-- C74: `blpk decompress O G`, with `-f` if `G` exists, gives back what `O` unpacks to. -/
theorem C74_decompress (E : Env μ) (S : Shown μ) (P : ParserEnv) (prog : List Char) (c : CommandLine) (fs : FS)
    (name : String) (items : List CliItem) (O G : String) (hacc : Accepted E P c) (hs : c.subcommand = some (name, items))
    (hcmd : name = "decompress" ∨ name = "d")
    (hfiles : (positionals items = [O] ∧ O = G ++ ".blp" ∧ switch ["-e", "--no-check-extension"] items = false) ∨
      (positionals items = [O, G] ∧ G ≠ "" ∧ G ≠ O ∧ (switch ["-e", "--no-check-extension"] items = true ∨ ∃ F : String, O = F ++ ".blp")))
    (hw : fs.canWrite G = true) (hnew : fs.files G = none ∨ switch ["-f", "--force"] c.globals = true)
    (data : Bytes) (md : Option μ) (hun : unpackBytesFromFile E fs O = .ok (data, md)) :
    (blpkMain E S P prog c fs).1 = .ok () ∧ (blpkMain E S P prog c fs).2.fs.files G = some data := by
  have hset := settings_of (E := E) (P := P) (cmd := .decompress) hs (by rcases hcmd with rfl | rfl <;> decide)
  rw [C72_accepted E S P prog c fs hacc]
  have hsub : IsDecompress (settings c) := by
    unfold IsDecompress
    rw [hset, withFiles_subcommand]
    rcases hcmd with rfl | rfl
    · exact .inl rfl
    · exact .inr rfl
  have hforce : (settings c).force = switch ["-f", "--force"] c.globals := by rw [hset]; rfl
  have hext : (settings c).no_check_extension = switch ["-e", "--no-check-extension"] items := by rw [hset]; rfl
  have hio : (settings c).in_file = O := by
    rw [hset]
    rcases hfiles with ⟨h, -⟩ | ⟨h, -⟩ <;> (rw [h]; rfl)
  refine decompress_total E S prog (settings c) fs G data md hsub ?_ ?_ hw (by rw [hforce]; exact hnew) (by rw [hio]; exact hun)
  · rcases hfiles with ⟨h1, h2, h3⟩ | ⟨h1, h2, h3, h4⟩
    · exact .inl ⟨by rw [hset, h1]; rfl, by rw [hio, h2], by rw [hext, h3]⟩
    · refine .inr ⟨by rw [hset, h1]; rfl, h2, ?_⟩
      unfold ExtensionFine
      rw [hext, hio]
      exact h4
  · rw [hio]
    rcases hfiles with ⟨h1, h2, h3⟩ | ⟨h1, h2, h3, h4⟩
    · rw [h2]; exact ext_ne G
    · exact h3.symm

namespace SessionExample

def files : FS := ⟨fun x => if x = "f" then some [1, 2, 3] else if x = "n" then some [4, 5] else if x = "m" then some [32, 91, 49, 49] else none, fun _ => true⟩
def run (c : CommandLine) (fs : FS) : Except Err Unit × World :=
  blpkMain Toy.env CliExample.shown { max_threads := 256, ncores := 4 } "blpk".toList c fs
def compress : CommandLine := { subcommand := some ("compress", [.value "-z" "2".toList, .positional "f"]) }
def info : CommandLine := { subcommand := some ("info", [.positional "f.blp"]) }
def append : CommandLine := { subcommand := some ("append", [.flag "-s", .positional "f.blp", .positional "n"]) }
def appendMeta : CommandLine := { subcommand := some ("a", [.positional "f.blp", .positional "n", .value "-m" "m".toList]) }

/-- the archive after `compress`, after `append`, and after an `append` with metadata, which fails as there is no metadata section -/
def d1 : Bytes := ((run compress files).2.fs.files "f.blp").getD []
def fs1 : FS := (run compress files).2.fs
def fs2 : FS := (run append fs1).2.fs
def fs3 : FS := (run appendMeta fs2).2.fs
def d2 : Bytes := (fs2.files "f.blp").getD []
def d3 : Bytes := (fs3.files "f.blp").getD []

theorem compress_accepted (P : ParserEnv) : Accepted Toy.env P compress := by
  refine ⟨(by intro i hi; cases hi), by decide, fun name items h => ?_⟩
  cases h
  refine ⟨.compress, by decide, ?_, .inl rfl, fun _ _ => ⟨[.value "-z" "2".toList], ["f"], [], rfl, rfl, rfl⟩⟩
  intro i hi
  simp only [List.mem_cons, List.not_mem_nil, or_false] at hi
  rcases hi with rfl | rfl
  · exact ⟨.chunk_size, by decide, by decide, 2, by decide +kernel⟩
  · trivial

theorem want_m (fs : FS) (h : fs.files (String.ofList "m".toList) = some [32, 91, 49, 49]) :
    match (valuesOf ["-m", "--metadata"] [.positional "f.blp", .positional "n", .value "-m" "m".toList]).getLast? with
    | none => some 2 = (none : Option Nat)
    | some file => ∀ content x, fs.files (String.ofList file) = some content → Toy.env.loads (stripBytes content) = .ok x → some 2 = x := by
  intro content x h1 h2
  have h1 : fs.files (String.ofList "m".toList) = some content := h1
  rw [h] at h1
  cases h1
  have h' : Toy.env.loads (stripBytes [32, 91, 49, 49]) = .ok (some 2) := by rfl
  rw [h'] at h2
  cases h2
  rfl

theorem session : Session Toy.env CliExample.shown { max_threads := 256, ncores := 4 } "blpk".toList "f.blp" d1
    [⟨true, false, none, [4, 5]⟩, ⟨false, true, some 2, [4, 5]⟩] d3 := by
  refine .other info fs1 (by decide +kernel) (info_writes_nothing rfl (.inl rfl)) (d' := d1) (by decide +kernel) ?_
  refine .append _ append fs1 "append" _ "n" (by decide +kernel) rfl (.inl rfl) rfl (by decide) (by decide +kernel) (by decide +kernel)
    (by decide +kernel) (by decide) rfl (d' := d2) (by decide +kernel) ?_
  refine .append _ appendMeta fs2 "a" _ "n" (by decide +kernel) rfl (.inr rfl) rfl (by decide) (by decide +kernel) (by decide +kernel)
    (by decide +kernel) (by decide) ?_ (d' := d3) (by decide +kernel) (.nil _)
  exact want_m fs2 (by decide +kernel)

/-- `C74_session` applies -/
example : ∃ now, Effects [⟨true, false, none, [4, 5]⟩, ⟨false, true, some 2, [4, 5]⟩] ([1, 2, 3], (none : Option Nat)) now ∧
    unpackBytesFromBytes Toy.env d3 = .ok now := by
  obtain ⟨data, md, h1, h2, h3⟩ := C74_session Toy.env Toy.laws CliExample.shown _ _ compress files "compress" _ "f" "f.blp" (compress_accepted _) rfl
    (.inl rfl) (.inl ⟨rfl, rfl⟩) (by decide +kernel) d1 (by decide +kernel) _ _ session
  have : files.files "f" = some [1, 2, 3] := by decide
  rw [this] at h1
  cases h1
  have h2 : md = none := h2
  rw [h2] at h3
  exact h3

/-- the last command failed, but appended -/
example : (unpackBytesFromBytes Toy.env d3).toOption = some ([1, 2, 3, 4, 5, 4, 5], none) := by decide +kernel

/-- `C74_decompress` applies -/
example : (run { subcommand := some ("d", [.positional "f.blp", .positional "g"]) } fs3).2.fs.files "g" = some [1, 2, 3, 4, 5, 4, 5] := by
  decide +kernel

end SessionExample

end Bloscpack
