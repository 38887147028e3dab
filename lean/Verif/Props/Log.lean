import Verif.Model.Log
/-
C39: what is logged.
-/
namespace Bloscpack

/-- text made of the given lines, separated by newlines -/
def Spec.joinedLines : List (List Char) → List Char
  | [] => []
  | [l] => l
  | l :: l' :: ls => l ++ '\n' :: Spec.joinedLines (l' :: ls)

/-- a message logged at `level` is due when the current verbosity is `current` -/
def Spec.Due (level current : String) : Prop :=
  (level, current) ∈ [("NORMAL", "NORMAL"), ("NORMAL", "VERBOSE"), ("NORMAL", "DEBUG"), ("VERBOSE", "VERBOSE"),
    ("VERBOSE", "DEBUG"), ("DEBUG", "DEBUG")]

instance (a b : String) : Decidable (Spec.Due a b) := by unfold Spec.Due; infer_instance

theorem splitNL_ne (m : List Char) : splitNL m ≠ [] := by
  cases m with
  | nil => simp [splitNL]
  | cons c cs =>
    unfold splitNL
    split
    · simp
    · split <;> simp

theorem splitNL_line (l : List Char) (h : '\n' ∉ l) : splitNL l = [l] := by
  induction l with
  | nil => rfl
  | cons c cs ih =>
    have h1 : c ≠ '\n' := fun h' => h (by rw [h']; exact List.mem_cons_self)
    rw [splitNL, ih (fun h' => h (List.mem_cons_of_mem _ h'))]
    simp [h1]

theorem splitNL_append (l m : List Char) (h : '\n' ∉ l) : splitNL (l ++ '\n' :: m) = l :: splitNL m := by
  induction l with
  | nil =>
    rw [List.nil_append, splitNL]
    generalize hm : splitNL m = r
    cases r with
    | nil => exact absurd hm (splitNL_ne m)
    | cons x xs => rfl
  | cons c cs ih =>
    have h1 : c ≠ '\n' := fun h' => h (by rw [h']; exact List.mem_cons_self)
    rw [List.cons_append, splitNL, ih (fun h' => h (List.mem_cons_of_mem _ h'))]
    simp [h1]

theorem splitNL_joined (ls : List (List Char)) (hne : ls ≠ []) (h : ∀ l ∈ ls, '\n' ∉ l) : splitNL (Spec.joinedLines ls) = ls := by
  induction ls with
  | nil => exact absurd rfl hne
  | cons l ls ih =>
    cases ls with
    | nil => exact splitNL_line l (h l List.mem_cons_self)
    | cons l' ls =>
      rw [Spec.joinedLines, splitNL_append _ _ (h l List.mem_cons_self), ih (by simp) (fun x hx => h x (List.mem_cons_of_mem _ hx))]

/-- every message consists of lines without newlines: the form used in the theorems below is no restriction -/
theorem C39_every_message (m : List Char) : ∃ ls, ls ≠ [] ∧ (∀ l ∈ ls, '\n' ∉ l) ∧ m = Spec.joinedLines ls := by
  induction m with
  | nil => exact ⟨[[]], by simp, by simp, rfl⟩
  | cons c cs ih =>
    obtain ⟨ls, h1, h2, rfl⟩ := ih
    cases ls with
    | nil => exact absurd rfl h1
    | cons l ls =>
      by_cases hc : c = '\n'
      · subst hc
        refine ⟨[] :: l :: ls, by simp, ?_, rfl⟩
        intro x hx
        rcases List.mem_cons.1 hx with rfl | hx
        · simp
        · exact h2 x hx
      · refine ⟨(c :: l) :: ls, by simp, ?_, ?_⟩
        · intro x hx
          rcases List.mem_cons.1 hx with rfl | hx
          · intro h
            rcases List.mem_cons.1 h with h | h
            · exact hc h.symm
            · exact h2 l List.mem_cons_self h
          · exact h2 x (List.mem_cons_of_mem _ hx)
        · cases ls <;> rfl

theorem due_iff : ∀ a ∈ verbosityLevels, ∀ b ∈ verbosityLevels,
    (verbosityLevels.idxOf a ≤ verbosityLevels.idxOf b ↔ Spec.Due a b) := by decide +kernel

/-- C39: a message logged at a level is printed if that level is due at the current verbosity, and then as one prefixed
line for each of its non-empty lines, in order; otherwise nothing is printed. Nothing else changes. -/
theorem C39_filter (ls : List (List Char)) (hne : ls ≠ []) (h : ∀ l ∈ ls, '\n' ∉ l) (level : String) (s : Log)
    (hl : level ∈ verbosityLevels) (hs : s.level ∈ verbosityLevels) :
    verbose (Spec.joinedLines ls) level s = (.ok (), { s with out := s.out ++ (if Spec.Due level s.level then (ls.filter (fun l => l ≠ [])).map (fun l => s.pfx ++ [':', ' '] ++ l) else []) }) := by
  unfold verbose messageLines
  rw [splitNL_joined ls hne h]
  simp only [bind, Proc.bind, Proc.get, hl, hs, not_true, if_false]
  by_cases hd : Spec.Due level s.level
  · rw [if_pos ((due_iff _ hl _ hs).2 hd), if_pos hd]; rfl
  · rw [if_neg (fun h => hd ((due_iff _ hl _ hs).1 h)), if_neg hd, List.append_nil]; rfl

/-- C39: at which verbosities `normal`, `verbose` and `debug` print -/
theorem C39_levels (current : String) :
    (Spec.Due "NORMAL" current ↔ current = "NORMAL" ∨ current = "VERBOSE" ∨ current = "DEBUG") ∧
    (Spec.Due "VERBOSE" current ↔ current = "VERBOSE" ∨ current = "DEBUG") ∧
    (Spec.Due "DEBUG" current ↔ current = "DEBUG") := by
  unfold Spec.Due
  simp

/-- C39: unknown levels are rejected and nothing is printed -/
theorem C39_unknown_level (m : List Char) (level : String) (s : Log) (hl : level ∉ verbosityLevels) :
    verbose m level s = (.error .typeError, s) := by
  unfold verbose
  simp [bind, Proc.bind, Proc.get, hl, Proc.raise]

/-- C39: if the program assigned something else to the current level, every message is rejected and nothing is printed -/
theorem C39_unknown_current (m : List Char) (level : String) (s : Log) (hl : level ∈ verbosityLevels) (hs : s.level ∉ verbosityLevels) :
    verbose m level s = (.error .valueError, s) := by
  unfold verbose
  simp [bind, Proc.bind, Proc.get, hl, hs, Proc.raise]

/-- C39: errors are printed whatever the verbosity, one prefixed line for each non-empty line, and the program exits with
the given code -/
theorem C39_error (ls : List (List Char)) (hne : ls ≠ []) (h : ∀ l ∈ ls, '\n' ∉ l) (code : Int) (s : Log) (α : Type) :
    logError (α := α) (Spec.joinedLines ls) code s = (.error (.systemExit code), { s with out := s.out ++ (ls.filter (fun l => l ≠ [])).map (fun l => s.pfx ++ [':', ' ', 'e', 'r', 'r', 'o', 'r', ':', ' '] ++ l) }) := by
  unfold logError messageLines
  rw [splitNL_joined ls hne h]
  rfl

/-- C39, violated: `set_level` never changes what is printed: for every state and every level other than the current one,
the call returns or raises and leaves the level as it was. -/
theorem C39_set_level_violated (level : String) (s : Log) (hne : level ≠ s.level) :
    (setLevel level s).2 = s ∧ (setLevel level s).2.level ≠ level := by
  have : (setLevel level s).2 = s := by unfold setLevel; split <;> rfl
  exact ⟨this, by rw [this]; exact hne.symm⟩

/-- what remains of it: `set_level` accepts exactly the three levels, and raises `ValueError` for all others -/
theorem C39_set_level_partial (level : String) (s : Log) :
    (level ∈ verbosityLevels → (setLevel level s).1 = .ok ()) ∧ (level ∉ verbosityLevels → (setLevel level s).1 = .error .valueError) := by
  unfold setLevel
  constructor <;> intro h <;> simp [h, Proc.pure, Proc.raise]

/-- a three line message with an empty line, at a level that is due, prints two lines -/
example : (verbose ['a', '\n', '\n', 'b'] "VERBOSE" { level := "DEBUG", pfx := ['x'] }).2.out = [['x', ':', ' ', 'a'], ['x', ':', ' ', 'b']] := by
  decide +kernel

/-- a current level that is none of the three (`C39_unknown_current`) -/
example : "NORMAL" ∈ verbosityLevels ∧ "QUIET" ∉ verbosityLevels := by decide +kernel

example : ¬ Spec.Due "DEBUG" "VERBOSE" := by decide +kernel

end Bloscpack
