import Verif.Props.Pretty
/-
C38, C69: exactly which texts `int` and `float` and `reverse_pretty` read as which numbers.
-/
namespace Bloscpack
open Spec

/-! ### whitespace and underscores -/

theorem blank_iff (c : Char) : blank c ↔ isPySpace c = true := by
  unfold blank isPySpace
  constructor
  · intro h
    simp only [List.mem_cons, List.not_mem_nil, or_false] at h
    rcases h with rfl | rfl | rfl | rfl | rfl | rfl <;> decide
  · intro h
    simp only [Bool.or_eq_true, decide_eq_true_eq, Bool.and_eq_true] at h
    simp only [List.mem_cons, List.not_mem_nil, or_false]
    have hc : ∀ d : Char, c.toNat = d.toNat → c = d := fun d hd => Char.toNat_inj.1 hd
    rcases h with h | ⟨h1, h2⟩
    · exact .inl h
    · rcases (by omega : c.toNat = 9 ∨ c.toNat = 10 ∨ c.toNat = 11 ∨ c.toNat = 12 ∨ c.toNat = 13) with h | h | h | h | h
      · exact .inr (.inl (hc '\t' h))
      · exact .inr (.inr (.inl (hc '\n' h)))
      · exact .inr (.inr (.inr (.inl (hc '\x0b' h))))
      · exact .inr (.inr (.inr (.inr (.inl (hc '\x0c' h)))))
      · exact .inr (.inr (.inr (.inr (.inr (hc '\r' h)))))

theorem dropWhile_split {α : Type} (p : α → Bool) : ∀ s : List α, ∃ a, s = a ++ s.dropWhile p ∧ ∀ c ∈ a, p c = true
  | [] => ⟨[], rfl, by simp⟩
  | c :: cs => by
    by_cases h : p c = true
    · obtain ⟨a, h1, h2⟩ := dropWhile_split p cs
      refine ⟨c :: a, ?_, ?_⟩
      · rw [List.dropWhile_cons, if_pos h, List.cons_append, ← h1]
      · intro x hx
        rcases List.mem_cons.1 hx with rfl | hx
        · exact h
        · exact h2 x hx
    · exact ⟨[], by rw [List.dropWhile_cons, if_neg h]; rfl, by simp⟩

theorem dropWhile_prefix {α : Type} (p : α → Bool) (a s : List α) (ha : ∀ c ∈ a, p c = true) (hs : ∀ c ∈ s.head?, p c = false) :
    (a ++ s).dropWhile p = s := by
  induction a with
  | nil =>
    cases s with
    | nil => rfl
    | cons c cs => rw [List.nil_append, List.dropWhile_cons, if_neg (by rw [hs c (by simp)]; decide)]
  | cons c cs ih =>
    rw [List.cons_append, List.dropWhile_cons, if_pos (ha c List.mem_cons_self)]
    exact ih (fun x hx => ha x (List.mem_cons_of_mem _ hx))

theorem stripSpaces_split (s : List Char) : ∃ a b, s = a ++ stripSpaces s ++ b ∧ (∀ c ∈ a, blank c) ∧ (∀ c ∈ b, blank c) := by
  obtain ⟨a, h1, h2⟩ := dropWhile_split isPySpace s
  obtain ⟨b, h3, h4⟩ := dropWhile_split isPySpace (s.dropWhile isPySpace).reverse
  refine ⟨a, b.reverse, ?_, fun c hc => (blank_iff c).2 (h2 c hc), fun c hc => (blank_iff c).2 (h4 c (List.mem_reverse.1 hc))⟩
  unfold stripSpaces
  rw [List.append_assoc, ← List.reverse_append, ← h3, List.reverse_reverse, ← h1]

theorem stripSpaces_around (a u b : List Char) (ha : ∀ c ∈ a, blank c) (hb : ∀ c ∈ b, blank c) (hh : ∀ c ∈ u.head?, ¬ blank c)
    (hl : ∀ c ∈ u.getLast?, ¬ blank c) (hne : u ≠ []) : stripSpaces (a ++ u ++ b) = u := by
  have hf : ∀ c, ¬ blank c → isPySpace c = false := by
    intro c h
    cases hp : isPySpace c with
    | false => rfl
    | true => exact absurd ((blank_iff c).2 hp) h
  unfold stripSpaces
  rw [List.append_assoc, dropWhile_prefix _ a (u ++ b) (fun c hc => (blank_iff c).1 (ha c hc))
    (by
      intro c hc
      cases u with
      | nil => exact absurd rfl hne
      | cons x xs => exact hf c (hh c hc)), List.reverse_append,
    dropWhile_prefix _ b.reverse u.reverse (fun c hc => (blank_iff c).1 (hb c (List.mem_reverse.1 hc)))
    (by intro c hc; rw [List.head?_reverse] at hc; exact hf c (hl c hc)), List.reverse_reverse]

theorem digit_ne_underscore {c : Char} (h : c.isDigit = true) : c ≠ '_' := by
  rintro rfl; cases h

theorem underscored_cons {u : List Char} {c : Char} {t : List Char} (h : Underscored u (c :: t)) : ∃ u', u = c :: u' := by
  cases h
  · exact ⟨_, rfl⟩
  · exact ⟨_, rfl⟩

theorem underscored_ne {c : Char} {u t : List Char} (h : Underscored (c :: u) t) : c ≠ '_' := by
  cases h
  · assumption
  · exact digit_ne_underscore (by assumption)

/-- what is read after a character -/
theorem dropUnderscores_iff : ∀ (s t : List Char),
    (∀ prev : Option Char, prev ≠ some '_' → (dropUnderscores prev s = some t ↔
      Underscored s t ∨ (prev.any Char.isDigit = true ∧ ∃ e u t', s = '_' :: e :: u ∧ t = e :: t' ∧ e.isDigit = true ∧ Underscored (e :: u) (e :: t')))) ∧
    (dropUnderscores (some '_') s = some t ↔ ∃ e u t', s = e :: u ∧ t = e :: t' ∧ e.isDigit = true ∧ Underscored (e :: u) (e :: t')) := by
  intro s
  induction s with
  | nil =>
    intro t
    constructor
    · intro prev hp
      rw [dropUnderscores, if_neg hp]
      constructor
      · rintro h; cases h; exact .inl .nil
      · rintro (h | ⟨-, e, u, t', h, -⟩)
        · cases h; rfl
        · cases h
    · rw [dropUnderscores, if_pos rfl]
      constructor
      · intro h; cases h
      · rintro ⟨e, u, t', h, -⟩; cases h
  | cons c cs ih =>
    intro t
    -- what follows `c`, if `c` is no underscore
    have hstep : c ≠ '_' → ((dropUnderscores (some c) cs).map (c :: ·) = some t ↔ Underscored (c :: cs) t) := by
      intro hc
      constructor
      · intro h
        obtain ⟨t', h1, rfl⟩ := Option.map_eq_some_iff.1 h
        rcases ((ih t').1 (some c) (by simpa using hc)).1 h1 with h2 | ⟨h2, e, u, t'', rfl, rfl, h3, h4⟩
        · exact .char c cs t' hc h2
        · exact .between c e u t'' h2 h3 h4
      · intro h
        cases h with
        | char _ _ t' _ h2 => rw [((ih t').1 (some c) (by simpa using hc)).2 (.inl h2)]; rfl
        | between _ e u t' h1 h2 h3 =>
          rw [((ih (e :: t')).1 (some c) (by simpa using hc)).2 (.inr ⟨h1, e, u, t', rfl, rfl, h2, h3⟩)]; rfl
    constructor
    · intro prev hp
      by_cases hc : c = '_'
      · subst hc
        rw [dropUnderscores, if_pos rfl]
        by_cases hd : prev.any Char.isDigit = true
        · rw [if_pos hd, (ih t).2]
          constructor
          · rintro ⟨e, u, t', rfl, rfl, h1, h2⟩
            exact .inr ⟨hd, e, u, t', rfl, rfl, h1, h2⟩
          · rintro (h | ⟨-, e, u, t', h1, h2, h3, h4⟩)
            · exact absurd rfl (underscored_ne h)
            · cases h1; exact ⟨e, u, t', rfl, h2, h3, h4⟩
        · rw [if_neg hd]
          constructor
          · intro h; cases h
          · rintro (h | ⟨h, -⟩)
            · exact absurd rfl (underscored_ne h)
            · exact absurd h hd
      · rw [dropUnderscores, if_neg hc, if_neg (fun h => hp h.1), hstep hc]
        constructor
        · exact .inl
        · rintro (h | ⟨-, e, u, t', h, -⟩)
          · exact h
          · cases h; exact absurd rfl hc
    · by_cases hc : c = '_'
      · subst hc
        rw [dropUnderscores, if_pos rfl, if_neg (by decide)]
        constructor
        · intro h; cases h
        · rintro ⟨e, u, t', h1, -, h2, -⟩; cases h1; cases h2
      · rw [dropUnderscores, if_neg hc]
        by_cases hd : c.isDigit = false
        · rw [if_pos ⟨rfl, hd⟩]
          constructor
          · intro h; cases h
          · rintro ⟨e, u, t', h1, -, h2, -⟩; cases h1; rw [hd] at h2; cases h2
        · rw [if_neg (fun h => hd h.2), hstep hc]
          constructor
          · intro h
            cases h with
            | char _ _ t' h1 h2 => exact ⟨c, cs, t', rfl, rfl, by simpa using hd, .char c cs t' h1 h2⟩
            | between _ e u t' h1 h2 h3 => exact ⟨c, '_' :: e :: u, e :: t', rfl, rfl, h1, .between c e u t' h1 h2 h3⟩
          · rintro ⟨e, u, t', h1, h2, h3, h4⟩
            cases h1; rw [h2]; exact h4

/-- C38: single underscores between digits, and only these, are ignored -/
theorem dropUnderscores_spec (u t : List Char) : dropUnderscores none u = some t ↔ Underscored u t := by
  rw [(dropUnderscores_iff u t).1 none (by simp)]
  constructor
  · rintro (h | ⟨h, -⟩)
    · exact h
    · cases h
  · exact .inl

theorem underscored_head {u t : List Char} (h : Underscored u t) : u.head? = t.head? := by
  cases h <;> rfl

theorem underscored_last {u t : List Char} (h : Underscored u t) : u.getLast? = t.getLast? := by
  induction h with
  | nil => rfl
  | char c u t _ h ih =>
    rw [List.getLast?_cons, List.getLast?_cons, ih]
  | between d e u t _ _ h ih =>
    rw [List.getLast?_cons_cons, List.getLast?_cons_cons, ih, List.getLast?_cons_cons]

/-- what is left of a text after whitespace and underscores were taken away -/
theorem written_of (s t : List Char) (h : dropUnderscores none (stripSpaces s) = some t) : Written s t := by
  obtain ⟨a, b, h1, h2, h3⟩ := stripSpaces_split s
  exact ⟨a, _, b, h1, h2, h3, (dropUnderscores_spec _ _).1 h⟩

theorem of_written (s t : List Char) (h : Written s t) (hne : t ≠ []) (hh : ∀ c ∈ t.head?, ¬ blank c) (hl : ∀ c ∈ t.getLast?, ¬ blank c) :
    dropUnderscores none (stripSpaces s) = some t := by
  obtain ⟨a, u, b, rfl, h2, h3, h4⟩ := h
  rw [stripSpaces_around a u b h2 h3 (by rw [underscored_head h4]; exact hh) (by rw [underscored_last h4]; exact hl)
    (by rintro rfl; cases h4; exact hne rfl)]
  exact (dropUnderscores_spec _ _).2 h4

/-! ### signs and digits -/

theorem takeSign_split (t : List Char) : ∃ sign, ((takeSign t).1, sign) ∈ signTexts ∧ t = sign ++ (takeSign t).2 := by
  unfold takeSign
  split
  · exact ⟨['-'], by simp [signTexts], rfl⟩
  · exact ⟨['+'], by simp [signTexts], rfl⟩
  · exact ⟨[], by simp [signTexts], rfl⟩

theorem takeSign_of {neg : Bool} {sign r : List Char} (h : (neg, sign) ∈ signTexts) (hr : ∀ c ∈ r.head?, c ≠ '-' ∧ c ≠ '+') :
    takeSign (sign ++ r) = (neg, r) := by
  simp only [signTexts, List.mem_cons, Prod.mk.injEq, List.not_mem_nil, or_false] at h
  rcases h with ⟨rfl, rfl⟩ | ⟨rfl, rfl⟩ | ⟨rfl, rfl⟩
  · exact takeSign_digits r hr
  · rfl
  · rfl

theorem takeDigits_split : ∀ (t : List Char) (v k : Nat), ∃ ds, t = ds ++ (takeDigits t v k).2.2 ∧ (∀ c ∈ ds, c.isDigit = true) ∧
    (takeDigits t v k).1 = ds.foldl (fun v c => 10 * v + (c.toNat - 48)) v ∧ (takeDigits t v k).2.1 = k + ds.length ∧
    ∀ c ∈ (takeDigits t v k).2.2.head?, c.isDigit = false
  | [], v, k => ⟨[], rfl, by simp, rfl, rfl, by simp [takeDigits]⟩
  | c :: cs, v, k => by
    rw [takeDigits]
    split
    · rename_i hc
      obtain ⟨ds, h1, h2, h3, h4, h5⟩ := takeDigits_split cs (10 * v + (c.toNat - 48)) (k + 1)
      refine ⟨c :: ds, by rw [List.cons_append, ← h1], ?_, h3, by rw [h4, List.length_cons]; omega, h5⟩
      intro x hx
      rcases List.mem_cons.1 hx with rfl | hx
      · exact hc
      · exact h2 x hx
    · rename_i hc
      exact ⟨[], rfl, by simp, rfl, rfl, by simpa using hc⟩

theorem digit_not_blank {c : Char} (h : c.isDigit = true) : ¬ blank c := by
  intro hb
  have := (blank_iff c).1 hb
  rw [(plainChar_facts (.inl h)).1] at this
  cases this

theorem signTexts_head {neg : Bool} {sign : List Char} (h : (neg, sign) ∈ signTexts) : ∀ c ∈ sign.head?, ¬ blank c := by
  simp only [signTexts, List.mem_cons, Prod.mk.injEq, List.not_mem_nil, or_false] at h
  rcases h with ⟨-, rfl⟩ | ⟨-, rfl⟩ | ⟨-, rfl⟩ <;> simp [blank]

theorem head?_append_cases {α : Type} {a b : List α} {P : α → Prop} (ha : ∀ c ∈ a.head?, P c) (hb : ∀ c ∈ b.head?, P c) :
    ∀ c ∈ (a ++ b).head?, P c := by
  cases a with
  | nil => exact hb
  | cons x xs => exact ha

theorem getLast?_append_cases {α : Type} {a b : List α} {P : α → Prop} (ha : ∀ c ∈ a.getLast?, P c) (hb : ∀ c ∈ b.getLast?, P c) :
    ∀ c ∈ (a ++ b).getLast?, P c := by
  cases hb' : b.getLast? with
  | none =>
    rw [List.getLast?_eq_none_iff] at hb'
    rw [hb', List.append_nil]; exact ha
  | some x =>
    intro c hc
    rw [List.getLast?_append, hb'] at hc
    exact hb c (by rw [hb']; exact hc)

theorem signTexts_last {neg : Bool} {sign : List Char} (h : (neg, sign) ∈ signTexts) : ∀ c ∈ sign.getLast?, ¬ blank c := by
  simp only [signTexts, List.mem_cons, Prod.mk.injEq, List.not_mem_nil, or_false] at h
  rcases h with ⟨-, rfl⟩ | ⟨-, rfl⟩ | ⟨-, rfl⟩ <;> simp [blank]

theorem all_head {α : Type} {a : List α} {P : α → Prop} (h : ∀ c ∈ a, P c) : ∀ c ∈ a.head?, P c :=
  fun c hc => h c (List.mem_of_mem_head? hc)

theorem all_last {α : Type} {a : List α} {P : α → Prop} (h : ∀ c ∈ a, P c) : ∀ c ∈ a.getLast?, P c :=
  fun c hc => h c (List.mem_of_getLast? hc)

/-! ### `int` -/

/-- exactly the texts that write an integer are read by `int`, as that integer -/
theorem C72_int (s : List Char) (i : Int) : pyInt s = some i ↔ IntText s i := by
  constructor
  · intro h
    unfold pyInt at h
    cases ht : dropUnderscores none (stripSpaces s) with
    | none => rw [ht] at h; cases h
    | some t =>
      rw [ht] at h
      simp only at h
      obtain ⟨sign, h1, h2⟩ := takeSign_split t
      obtain ⟨ds, h3, h4, h5, h6, -⟩ := takeDigits_split (takeSign t).2 0 0
      split at h
      · cases h
      · rename_i hno
        rw [not_or, Decidable.not_not] at hno
        rw [hno.2, List.append_nil] at h3
        refine ⟨(takeSign t).1, sign, ds, h1, ⟨?_, h4⟩, ?_, ?_⟩
        · rintro rfl; exact hno.1 h6
        · rw [← h3, ← h2]; exact written_of s t ht
        · cases h
          rw [h5]
          rfl
  · rintro ⟨neg, sign, ds, h1, ⟨h2, h3⟩, h4, rfl⟩
    have hhead : ∀ c ∈ ds.head?, c ≠ '-' ∧ c ≠ '+' := fun c hc => by
      have := digit_ne (all_head h3 c hc); exact ⟨this.1, this.2.1⟩
    have ht := of_written s (sign ++ ds) h4 (by simp [h2])
      (head?_append_cases (signTexts_head h1) (all_head fun c hc => digit_not_blank (h3 c hc)))
      (getLast?_append_cases (signTexts_last h1) (all_last fun c hc => digit_not_blank (h3 c hc)))
    have hd := takeDigits_all ds [] h3 (by simp) 0 0
    rw [List.append_nil, Nat.zero_add] at hd
    unfold pyInt
    rw [ht]
    simp only
    rw [takeSign_of h1 hhead]
    simp only
    rw [hd, if_neg]
    · rfl
    · have := List.length_pos_iff.2 h2
      simp
      exact h2
/-! ### `float` -/

theorem parseExp_iff (s : List Char) (x : Int) : parseExp s = some x ↔ ExpText s x := by
  unfold ExpText
  cases s with
  | nil => simp [parseExp, eq_comm]
  | cons c cs =>
    rw [parseExp]
    constructor
    · intro h
      split at h
      · rename_i hc
        obtain ⟨sign, h1, h2⟩ := takeSign_split cs
        obtain ⟨ds, h3, h4, h5, h6, -⟩ := takeDigits_split (takeSign cs).2 0 0
        simp only at h
        split at h
        · cases h
        · rename_i hno
          rw [not_or, Decidable.not_not] at hno
          rw [hno.2, List.append_nil] at h3
          refine .inr ⟨c, (takeSign cs).1, sign, ds, hc, h1, ⟨?_, h4⟩, ?_, ?_⟩
          · rintro rfl; exact hno.1 h6
          · rw [← h3, ← h2]
          · cases h; rw [h5]; rfl
      · cases h
    · rintro (⟨h, -⟩ | ⟨e, neg, sign, ds, he, h1, ⟨h2, h3⟩, h4, rfl⟩)
      · cases h
      · cases h4
        have hhead : ∀ c ∈ ds.head?, c ≠ '-' ∧ c ≠ '+' := fun c hc => by
          have := digit_ne (all_head h3 c hc); exact ⟨this.1, this.2.1⟩
        have hd := takeDigits_all ds [] h3 (by simp) 0 0
        rw [List.append_nil, Nat.zero_add] at hd
        rw [if_pos he, takeSign_of h1 hhead]
        simp only [hd]
        rw [if_neg]
        · rfl
        · have := List.length_pos_iff.2 h2
          simp
          exact h2

theorem takeFraction_split (v : Nat) (t : List Char) (ht : ∀ c ∈ t.head?, c.isDigit = false) :
    ∃ fp, t = fractionText fp ++ (takeFraction v t).2.2 ∧ (∀ c ∈ fp.getD [], c.isDigit = true) ∧
      (takeFraction v t).1 = (fp.getD []).foldl (fun v c => 10 * v + (c.toNat - 48)) v ∧ (takeFraction v t).2.1 = (fp.getD []).length := by
  unfold takeFraction
  split
  · rename_i r
    obtain ⟨ds, h1, h2, h3, h4, -⟩ := takeDigits_split r v 0
    exact ⟨some ds, by rw [fractionText, List.cons_append, ← h1], h2, h3, by rw [h4, Nat.zero_add]; rfl⟩
  · exact ⟨none, rfl, by simp, rfl, rfl⟩

theorem expText_head {ex : List Char} {y : Int} (h : ExpText ex y) : ∀ c ∈ ex.head?, c.isDigit = false ∧ c ≠ '.' ∧ ¬ blank c ∧ c ≠ '-' ∧ c ≠ '+' := by
  rcases h with ⟨rfl, -⟩ | ⟨e, neg, sign, ds, he, -, -, rfl, -⟩
  · simp
  · intro c hc
    cases hc
    rcases he with rfl | rfl <;> simp [blank]

theorem expText_last {ex : List Char} {y : Int} (h : ExpText ex y) : ∀ c ∈ ex.getLast?, ¬ blank c := by
  rcases h with ⟨rfl, -⟩ | ⟨e, neg, sign, ds, he, hs, hd, rfl, -⟩
  · simp
  · rw [show e :: (sign ++ ds) = (e :: sign) ++ ds from rfl, List.getLast?_append]
    cases hl : ds.getLast? with
    | none => exact absurd (List.getLast?_eq_none_iff.1 hl) hd.1
    | some d =>
      intro c hc
      cases hc
      exact digit_not_blank (hd.2 _ (List.mem_of_getLast? hl))

/-- the text of a decimal number, without whitespace and underscores -/
def Spec.NumberText (t : List Char) (neg : Bool) (n : Nat) (x : Int) : Prop :=
  ∃ sign ip fp ex y, (neg, sign) ∈ signTexts ∧ (∀ c ∈ ip, c.isDigit = true) ∧ (∀ c ∈ fp.getD [], c.isDigit = true) ∧
    (ip ≠ [] ∨ fp.getD [] ≠ []) ∧ ExpText ex y ∧ t = sign ++ (ip ++ (fractionText fp ++ ex)) ∧
    n = decimal (ip ++ fp.getD []) ∧ x = y - (fp.getD []).length

theorem floatText_iff (s : List Char) (neg : Bool) (n : Nat) (x : Int) : FloatText s neg n x ↔ ∃ t, Written s t ∧ NumberText t neg n x := by
  constructor
  · rintro ⟨sign, ip, fp, ex, y, h1, h2, h3, h4, h5, h6, h7, h8⟩
    exact ⟨_, h6, sign, ip, fp, ex, y, h1, h2, h3, h4, h5, rfl, h7, h8⟩
  · rintro ⟨t, h6, sign, ip, fp, ex, y, h1, h2, h3, h4, h5, rfl, h7, h8⟩
    exact ⟨sign, ip, fp, ex, y, h1, h2, h3, h4, h5, h6, h7, h8⟩

theorem parseFloat_iff (t : List Char) (f : Flt) : parseFloat t = some f ↔ ∃ neg n x, NumberText t neg n x ∧
    f = ⟨neg, (roundFlt (n * 10 ^ x.toNat) (10 ^ (-x).toNat)).1, (roundFlt (n * 10 ^ x.toNat) (10 ^ (-x).toNat)).2⟩ := by
  constructor
  · intro h
    unfold parseFloat at h
    simp only at h
    obtain ⟨sign, h1, h2⟩ := takeSign_split t
    obtain ⟨ip, h3, h4, h5, h6, h7⟩ := takeDigits_split (takeSign t).2 0 0
    obtain ⟨fp, h8, h9, h10, h11⟩ := takeFraction_split (takeDigits (takeSign t).2 0 0).1 (takeDigits (takeSign t).2 0 0).2.2 h7
    split at h
    · cases h
    · rename_i hne
      rw [h6, h11] at hne
      cases hx : parseExp (takeFraction (takeDigits (takeSign t).2 0 0).1 (takeDigits (takeSign t).2 0 0).2.2).2.2 with
      | none => rw [hx] at h; cases h
      | some y =>
        rw [hx] at h
        simp only at h
        have hn : (takeFraction (takeDigits (takeSign t).2 0 0).1 (takeDigits (takeSign t).2 0 0).2.2).1 = decimal (ip ++ fp.getD []) := by
          rw [h10, h5, decimal_append]; rfl
        refine ⟨(takeSign t).1, decimal (ip ++ fp.getD []), y - (fp.getD []).length,
          ⟨sign, ip, fp, _, y, h1, h4, h9, ?_, (parseExp_iff _ _).1 hx, ?_, rfl, rfl⟩, ?_⟩
        · refine Decidable.byContradiction fun hno => ?_
          rw [not_or, Decidable.not_not, Decidable.not_not] at hno
          rw [hno.1, hno.2] at hne
          exact hne rfl
        · rw [← h8, ← h3, ← h2]
        · cases h
          rw [hn, h11]
  · rintro ⟨neg, n, x, ⟨sign, ip, fp, ex, y, h1, h2, h3, h4, h5, rfl, rfl, rfl⟩, rfl⟩
    have hex := expText_head h5
    have hhead : ∀ c ∈ (ip ++ (fractionText fp ++ ex)).head?, c ≠ '-' ∧ c ≠ '+' := by
      refine head?_append_cases (fun c hc => ?_) (head?_append_cases ?_ (fun c hc => (hex c hc).2.2.2))
      · have := digit_ne (all_head h2 c hc); exact ⟨this.1, this.2.1⟩
      · cases fp <;> simp [fractionText]
    have hi := takeDigits_all ip (fractionText fp ++ ex) h2 (by
      refine head?_append_cases ?_ (fun c hc => (hex c hc).1)
      cases fp <;> simp [fractionText]) 0 0
    have hf : takeFraction (decimal ip) (fractionText fp ++ ex) = (decimal (ip ++ fp.getD []), (fp.getD []).length, ex) := by
      cases fp with
      | none =>
        simp only [fractionText, List.nil_append, Option.getD_none, List.append_nil, List.length_nil]
        unfold takeFraction
        split
        · exact absurd rfl (hex '.' (by simp)).2.1
        · rfl
      | some g =>
        have := takeDigits_all g ex h3 (fun c hc => (hex c hc).1) (decimal ip) 0
        rw [Nat.zero_add] at this
        rw [decimal_append]
        exact this
    unfold parseFloat
    rw [takeSign_of h1 hhead]
    simp only [hi, show (ip.foldl (fun v c => 10 * v + (c.toNat - 48)) 0) = decimal ip from rfl, hf, Nat.zero_add,
      (parseExp_iff ex y).2 h5]
    rw [if_neg]
    rcases h4 with h | h
    · have := List.length_pos_iff.2 h; omega
    · have := List.length_pos_iff.2 h; omega

theorem toLower_digit {c : Char} (h : c.isDigit = true) : c.toLower ≠ 'i' ∧ c.toLower ≠ 'n' := (plainChar_facts (.inl h)).2.2

/-- a decimal number is none of the words -/
theorem numberText_word {t : List Char} {neg : Bool} {n : Nat} {x : Int} (h : NumberText t neg n x) :
    ∀ w, (takeSign t).2.map Char.toLower = w → w.head? ≠ some 'i' ∧ w.head? ≠ some 'n' := by
  rintro w rfl
  obtain ⟨sign, ip, fp, ex, y, h1, h2, h3, h4, h5, rfl, -, -⟩ := h
  have hhead : ∀ c ∈ (ip ++ (fractionText fp ++ ex)).head?, (c ≠ '-' ∧ c ≠ '+') ∧ c.toLower ≠ 'i' ∧ c.toLower ≠ 'n' := by
    have h2' : ∀ c, c.isDigit = true → (c ≠ '-' ∧ c ≠ '+') ∧ c.toLower ≠ 'i' ∧ c.toLower ≠ 'n' :=
      fun c hc => ⟨⟨(digit_ne hc).1, (digit_ne hc).2.1⟩, toLower_digit hc⟩
    cases ip with
    | cons a l => intro c hc; cases hc; exact h2' _ (h2 _ List.mem_cons_self)
    | nil =>
      cases fp with
      | none => exact absurd rfl (h4.elim (fun h => absurd rfl h) id)
      | some g => intro c hc; cases hc; decide
  rw [takeSign_of h1 (fun c hc => (hhead c hc).1)]
  simp only [List.head?_map]
  cases hh : (ip ++ (fractionText fp ++ ex)).head? with
  | none => simp
  | some c =>
    have := (hhead c hh).2
    simpa using this

theorem numberText_ends {t : List Char} {neg : Bool} {n : Nat} {x : Int} (h : NumberText t neg n x) :
    t ≠ [] ∧ (∀ c ∈ t.head?, ¬ blank c) ∧ ∀ c ∈ t.getLast?, ¬ blank c := by
  obtain ⟨sign, ip, fp, ex, y, h1, h2, h3, h4, h5, rfl, -, -⟩ := h
  have hb : ∀ l : List Char, (∀ c ∈ l, c.isDigit = true) → ∀ c ∈ l, ¬ blank c := fun l hl c hc => digit_not_blank (hl c hc)
  refine ⟨?_, head?_append_cases (signTexts_head h1) (head?_append_cases (all_head (hb ip h2))
    (head?_append_cases ?_ (fun c hc => (expText_head h5 c hc).2.2.1))),
    getLast?_append_cases (signTexts_last h1) (getLast?_append_cases (all_last (hb ip h2))
    (getLast?_append_cases ?_ (expText_last h5)))⟩
  · intro h
    simp only [List.append_eq_nil_iff] at h
    obtain ⟨-, h6, h7, -⟩ := h
    rcases h4 with h | h
    · exact h h6
    · cases fp with
      | none => exact h rfl
      | some g => cases h7
  · cases fp <;> simp [fractionText, blank]
  · cases fp with
    | none => simp [fractionText]
    | some g =>
      rw [fractionText, show '.' :: g = ['.'] ++ g from rfl]
      exact getLast?_append_cases (by simp [blank]) (all_last (hb g h3))

/-- without digits no underscore can be put in -/
theorem underscored_plain {u t : List Char} (h : Underscored u t) (ht : ∀ c ∈ t, c.isDigit = false) : u = t := by
  induction h with
  | nil => rfl
  | char c u t _ _ ih => rw [ih (fun x hx => ht x (List.mem_cons_of_mem _ hx))]
  | between d e u t hd _ _ _ => rw [ht d List.mem_cons_self] at hd; cases hd

theorem toLower_special {c : Char} (h : blank c ∨ c = '-' ∨ c = '+' ∨ c.isDigit = true) : c.toLower = c := by
  rcases h with h | rfl | rfl | h
  · have h : c ∈ [' ', '\t', '\n', '\x0b', '\x0c', '\r'] := h
    simp only [List.mem_cons, List.not_mem_nil, or_false] at h
    rcases h with rfl | rfl | rfl | rfl | rfl | rfl <;> decide
  · decide
  · decide
  · have h1 : 48 ≤ c.toNat ∧ c.toNat ≤ 57 := by
      simp only [Char.isDigit, Bool.and_eq_true, decide_eq_true_eq] at h
      exact ⟨h.1, h.2⟩
    unfold Char.toLower
    rw [dif_neg]
    intro hx
    have hx1 : 65 ≤ c.toNat := hx.1
    omega

/-- the letters of the words -/
theorem letter_plain {c : Char} (h : c.toLower ∈ "infinityan".toList) : ¬ blank c ∧ c ≠ '-' ∧ c ≠ '+' := by
  refine ⟨fun hb => ?_, ?_, ?_⟩
  · rw [toLower_special (.inl hb)] at h
    have hb : c ∈ [' ', '\t', '\n', '\x0b', '\x0c', '\r'] := hb
    simp only [List.mem_cons, List.not_mem_nil, or_false] at hb
    rcases hb with rfl | rfl | rfl | rfl | rfl | rfl <;> revert h <;> decide
  · rintro rfl; revert h; decide
  · rintro rfl; revert h; decide

/-- how a word is read -/
theorem pyFloat_word (s : List Char) (words : List (List Char)) (h : WordText words s) (hw : ∀ w ∈ words, w ≠ [] ∧ ∀ c ∈ w, c ∈ "infinityan".toList) :
    ∃ t w, dropUnderscores none (stripSpaces s) = some t ∧ w ∈ words ∧ (takeSign t).2.map Char.toLower = w := by
  obtain ⟨neg, sign, w, h1, h2, h3⟩ := h
  have hl : ∀ c ∈ w, ¬ blank c ∧ c ≠ '-' ∧ c ≠ '+' := fun c hc => letter_plain ((hw _ h2).2 _ (List.mem_map_of_mem hc))
  have hne : w ≠ [] := by rintro rfl; exact (hw _ h2).1 rfl
  refine ⟨sign ++ w, _, of_written s _ h3 (by simp [hne])
    (head?_append_cases (signTexts_head h1) (all_head fun c hc => (hl c hc).1))
    (getLast?_append_cases (signTexts_last h1) (all_last fun c hc => (hl c hc).1)), h2, ?_⟩
  rw [takeSign_of h1 (all_head fun c hc => (hl c hc).2)]

theorem word_written (s t w : List Char) (h : dropUnderscores none (stripSpaces s) = some t) (hw : (takeSign t).2.map Char.toLower = w) :
    WordText [w] s := by
  obtain ⟨sign, h1, h2⟩ := takeSign_split t
  exact ⟨_, sign, _, h1, by rw [hw]; simp, by rw [← h2]; exact written_of s t h⟩

/-- exactly the texts of decimal numbers are read by `float` as finite numbers, as the nearest binary64 number -/
theorem pyFloat_finite (s : List Char) (f : Flt) : pyFloat s = some (.finite f) ↔ ∃ neg n x, FloatText s neg n x ∧
    f = ⟨neg, (roundFlt (n * 10 ^ x.toNat) (10 ^ (-x).toNat)).1, (roundFlt (n * 10 ^ x.toNat) (10 ^ (-x).toNat)).2⟩ := by
  unfold pyFloat
  constructor
  · intro h
    cases ht : dropUnderscores none (stripSpaces s) with
    | none => rw [ht] at h; cases h
    | some t =>
      rw [ht] at h
      simp only at h
      split at h
      · cases h
      · split at h
        · cases h
        · obtain ⟨f', h1, h2⟩ := Option.map_eq_some_iff.1 h
          cases h2
          obtain ⟨neg, n, x, h3, h4⟩ := (parseFloat_iff t f).1 h1
          exact ⟨neg, n, x, (floatText_iff _ _ _ _).2 ⟨t, written_of s t ht, h3⟩, h4⟩
  · rintro ⟨neg, n, x, h, rfl⟩
    obtain ⟨t, h1, h2⟩ := (floatText_iff _ _ _ _).1 h
    obtain ⟨h3, h4, h5⟩ := numberText_ends h2
    rw [of_written s t h1 h3 h4 h5]
    have hw := numberText_word h2
    simp only
    rw [if_neg, if_neg, (parseFloat_iff t _).2 ⟨neg, n, x, h2, rfl⟩]
    · rfl
    · intro h; exact (hw _ h).2 rfl
    · rintro (h | h)
      · exact (hw _ h).1 rfl
      · exact (hw _ h).1 rfl

/-- exactly the words for infinity are read as such -/
theorem pyFloat_infinity (s : List Char) : pyFloat s = some .infinity ↔ WordText ["inf".toList, "infinity".toList] s := by
  constructor
  · intro h
    unfold pyFloat at h
    cases ht : dropUnderscores none (stripSpaces s) with
    | none => rw [ht] at h; cases h
    | some t =>
      rw [ht] at h
      simp only at h
      split at h
      · rename_i hw
        rcases hw with hw | hw
        · obtain ⟨neg, sign, w, h1, h2, h3⟩ := word_written s t _ ht hw
          exact ⟨neg, sign, w, h1, List.mem_cons.2 (.inl (List.mem_singleton.1 h2)), h3⟩
        · obtain ⟨neg, sign, w, h1, h2, h3⟩ := word_written s t _ ht hw
          exact ⟨neg, sign, w, h1, List.mem_cons_of_mem _ h2, h3⟩
      · split at h
        · cases h
        · obtain ⟨f', h1, h2⟩ := Option.map_eq_some_iff.1 h
          cases h2
  · intro h
    obtain ⟨t, w, h1, h2, h3⟩ := pyFloat_word s _ h (by decide)
    unfold pyFloat
    rw [h1]
    simp only
    rw [if_pos]
    rw [h3]
    simp only [List.mem_cons, List.not_mem_nil, or_false] at h2
    exact h2

/-! ### the nearest binary64 number is unique -/

theorem scale_exp (X Y : Nat) (e : Int) (s : Nat) (hs : 0 ≤ e + s) : ∃ t, X * 2 ^ s = X * 2 ^ (-e).toNat * 2 ^ t ∧ Y * 2 ^ (e + s).toNat = Y * 2 ^ e.toNat * 2 ^ t := by
  refine ⟨s - (-e).toNat, ?_, ?_⟩
  · rw [Nat.mul_assoc, ← Nat.pow_add]; congr 2; omega
  · rw [Nat.mul_assoc, ← Nat.pow_add]; congr 2; omega

theorem nearest_exp (X Y : Nat) (hY : 0 < Y) (e e' : Int) (h : 2 ^ 52 * (Y * 2 ^ e.toNat) ≤ X * 2 ^ (-e).toNat)
    (h' : X * 2 ^ (-e').toNat < 2 ^ 53 * (Y * 2 ^ e'.toNat)) : e ≤ e' := by
  refine Decidable.byContradiction fun hlt => ?_
  have hlt : e' < e := by omega
  obtain ⟨t, h1, h2⟩ := scale_exp X Y e ((-e').toNat + (-e).toNat) (by omega)
  obtain ⟨t', h3, h4⟩ := scale_exp X Y e' ((-e').toNat + (-e).toNat) (by omega)
  have h5 := Nat.mul_le_mul_right (2 ^ t) h
  have h6 := Nat.mul_lt_mul_of_pos_right h' (Nat.two_pow_pos t')
  rw [← h1, Nat.mul_assoc, ← h2] at h5
  rw [← h3, Nat.mul_assoc, ← h4] at h6
  have hs1 : 0 ≤ e + ((-e').toNat + (-e).toNat : Nat) := by omega
  have hs2 : 0 ≤ e' + ((-e').toNat + (-e).toNat : Nat) := by omega
  generalize ((-e').toNat + (-e).toNat : Nat) = s at *
  have h7 : 2 ^ 53 * (Y * 2 ^ (e' + s).toNat) ≤ 2 ^ 52 * (Y * 2 ^ (e + s).toNat) := by
    have h8 : (e + s).toNat = (e' + s).toNat + 1 + ((e - e').toNat - 1) := by omega
    rw [h8, Nat.pow_add, show 2 ^ ((e' + (s : Int)).toNat + 1) = 2 ^ (e' + (s : Int)).toNat * 2 from rfl]
    have h9 := Nat.two_pow_pos ((e - e').toNat - 1)
    generalize 2 ^ ((e - e').toNat - 1) = p at *
    generalize 2 ^ (e' + (s : Int)).toNat = q at *
    have : Y * q * 2 ≤ Y * q * 2 * p := Nat.le_mul_of_pos_right _ h9
    have h10 : Y * (q * 2 * p) = Y * q * 2 * p := by simp only [Nat.mul_assoc]
    rw [h10]
    generalize Y * q = z at *
    generalize z * 2 * p = w at *
    omega
  omega

theorem nearest_unique (X Y m m' : Nat) (e e' : Int) (hY : 0 < Y) (h : NearestDouble X Y m e) (h' : NearestDouble X Y m' e') :
    m = m' ∧ e = e' := by
  obtain ⟨h1, h2, h3, h4, h5⟩ := h
  obtain ⟨h1', h2', h3', h4', h5'⟩ := h'
  have he : e = e' := by
    have := nearest_exp X Y hY e e' h1 h2'
    have := nearest_exp X Y hY e' e h1' h2
    omega
  subst he
  refine ⟨?_, rfl⟩
  have hd : 0 < Y * 2 ^ e.toNat := Nat.mul_pos hY (Nat.two_pow_pos _)
  clear h1 h2 h1' h2'
  generalize Y * 2 ^ e.toNat = d at *
  generalize X * 2 ^ (-e).toNat = n at *
  have key : ∀ a b : Nat, a < b → 2 * n ≤ 2 * (a * d) + d → 2 * (b * d) ≤ 2 * n + d → b = a + 1 ∧ 2 * n = 2 * (a * d) + d ∧ 2 * (b * d) = 2 * n + d := by
    intro a b hab ha hb
    have h6 : (a + 1) * d ≤ b * d := Nat.mul_le_mul_right _ hab
    have h7 : (a + 1) * d = a * d + d := Nat.succ_mul a d
    have h8 : b * d = (a + 1) * d := by omega
    exact ⟨Nat.eq_of_mul_eq_mul_right hd h8, by omega, by omega⟩
  rcases Nat.lt_trichotomy m m' with hlt | rfl | hlt
  · obtain ⟨h6, h7, h8⟩ := key m m' hlt h4 h3'
    have := h5 (.inr h7)
    have := h5' (.inl h8)
    omega
  · rfl
  · obtain ⟨h6, h7, h8⟩ := key m' m hlt h4' h3
    have := h5' (.inr h7)
    have := h5 (.inl h8)
    omega

/-- whole bytes -/
theorem bytesOf_iff (neg : Bool) (n : Nat) (x : Int) (k r : Nat) : BytesOf n x k r ↔
    Flt.truncMul ⟨neg, (roundFlt (n * 10 ^ x.toNat) (10 ^ (-x).toNat)).1, (roundFlt (n * 10 ^ x.toNat) (10 ^ (-x).toNat)).2⟩ k = signed neg r := by
  have hsig : ∀ a b : Nat, signed neg a = signed neg b ↔ a = b := by
    intro a b; unfold signed; cases neg <;> simp <;> omega
  have htrunc : ∀ m e, Flt.truncMul ⟨neg, m, e⟩ k = signed neg (if 0 ≤ e then m * 2 ^ e.toNat * k else m * k / 2 ^ (-e).toNat) := fun _ _ => rfl
  have hval : ∀ (m : Nat) (e : Int) (r : Nat), (r * 2 ^ (-e).toNat ≤ m * 2 ^ e.toNat * k ∧ m * 2 ^ e.toNat * k < (r + 1) * 2 ^ (-e).toNat) ↔
      (if 0 ≤ e then m * 2 ^ e.toNat * k else m * k / 2 ^ (-e).toNat) = r := by
    intro m e r
    by_cases he : 0 ≤ e
    · rw [if_pos he, show (-e).toNat = 0 by omega, Nat.pow_zero, Nat.mul_one, Nat.mul_one]; omega
    · rw [if_neg he, show e.toNat = 0 by omega, Nat.pow_zero, Nat.mul_one]
      have hp := Nat.two_pow_pos (-e).toNat
      rw [Nat.div_eq_iff hp, Nat.succ_mul]
      omega
  rw [htrunc, hsig]
  have hY : 0 < 10 ^ (-x).toNat := Nat.pow_pos (by omega)
  by_cases hn : n = 0
  · subst hn
    rw [Nat.zero_mul, show roundFlt 0 _ = (0, 0) from rfl]
    unfold BytesOf
    simp [eq_comm]
  · have hX : 0 < n * 10 ^ x.toNat := Nat.mul_pos (by omega) (Nat.pow_pos (by omega))
    have hnear := roundFlt_nearest _ _ hX hY
    rw [← hval]
    constructor
    · rintro (⟨h, -⟩ | ⟨-, m, e, h1, h2⟩)
      · exact absurd h hn
      · obtain ⟨h3, h4⟩ := nearest_unique _ _ _ _ _ _ hY hnear h1
        rw [h3, h4]; exact h2
    · intro h
      exact .inr ⟨by omega, _, _, hnear, h⟩

theorem eq_dropLast {v : List Char} {c : Char} (h : v.getLast? = some c) : v = v.dropLast ++ [c] := by
  have hne : v ≠ [] := by rintro rfl; cases h
  rw [List.getLast?_eq_some_getLast hne] at h
  cases h
  exact (List.dropLast_concat_getLast hne).symm

theorem bytesOf_total (n : Nat) (x : Int) (k : Nat) : ∃ r, BytesOf n x k r := by
  generalize hf : (⟨false, (roundFlt (n * 10 ^ x.toNat) (10 ^ (-x).toNat)).1, (roundFlt (n * 10 ^ x.toNat) (10 ^ (-x).toNat)).2⟩ : Flt) = f
  refine ⟨if 0 ≤ f.exp then f.mant * 2 ^ f.exp.toNat * k else f.mant * k / 2 ^ (-f.exp).toNat, (bytesOf_iff false n x k _).2 ?_⟩
  rw [hf]
  subst hf
  rfl

/-- C38, exactly: `reverse_pretty` reads the numbers with a suffix, as the number of bytes they mean; infinite sizes raise
`OverflowError`, the empty text `IndexError`, and any other text `ValueError`. -/
theorem C38_exact (v : List Char) :
    (∀ i, reversePretty v = .ok i ↔ UnitsText v i) ∧
    (reversePretty v = .error .overflowError ↔ InfiniteText v) ∧
    (reversePretty v = .error .indexError ↔ v = []) ∧
    (reversePretty v = .error .valueError ↔ v ≠ [] ∧ (¬ ∃ i, UnitsText v i) ∧ ¬ InfiniteText v) := by
  have hnat : ∀ neg r, (signed neg r).natAbs = r := by intro neg r; unfold signed; cases neg <;> simp
  have hunits : ∀ i, reversePretty v = .ok i ↔ UnitsText v i := by
    intro i
    constructor
    · intro h
      unfold reversePretty at h
      split at h
      · cases h
      · rename_i suffix hl
        split at h
        · cases h
        · rename_i k hk
          split at h
          · cases h
          · rename_i f hf
            unfold PyFloat.truncMul at h
            split at h
            · rename_i g
              split at h
              · rename_i hlt
                cases h
                obtain ⟨neg, n, x, h1, rfl⟩ := (pyFloat_finite _ _).1 hf
                obtain ⟨r, hr⟩ := bytesOf_total n x k
                have hb := (bytesOf_iff neg n x k r).1 hr
                rw [hb] at hlt ⊢
                rw [hnat] at hlt
                exact ⟨_, suffix, k, neg, n, x, r, (eq_dropLast hl), (suffixValue_spec suffix k).2 hk, h1, hr, hlt, rfl⟩
              · cases h
            · cases h
            · cases h
    · rintro ⟨s, suffix, k, neg, n, x, r, rfl, hk, hf, hb, hlt, rfl⟩
      unfold reversePretty
      rw [List.getLast?_concat, List.dropLast_concat]
      simp only [(suffixValue_spec _ _).1 hk]
      rw [(pyFloat_finite s _).2 ⟨neg, n, x, hf, rfl⟩]
      simp only [PyFloat.truncMul]
      rw [(bytesOf_iff neg n x k r).1 hb, hnat, if_pos hlt]
  have hinf : reversePretty v = .error .overflowError ↔ InfiniteText v := by
    constructor
    · intro h
      unfold reversePretty at h
      split at h
      · cases h
      · rename_i suffix hl
        split at h
        · cases h
        · rename_i k hk
          refine ⟨_, suffix, k, (eq_dropLast hl), (suffixValue_spec suffix k).2 hk, ?_⟩
          split at h
          · cases h
          · rename_i f hf
            unfold PyFloat.truncMul at h
            split at h
            · split at h
              · cases h
              · rename_i hlt
                obtain ⟨neg, n, x, h1, rfl⟩ := (pyFloat_finite _ _).1 hf
                obtain ⟨r, hr⟩ := bytesOf_total n x k
                have hb := (bytesOf_iff neg n x k r).1 hr
                rw [hb, hnat] at hlt
                exact .inr ⟨neg, n, x, r, h1, hr, Nat.not_lt.1 hlt⟩
            · exact .inl ((pyFloat_infinity _).1 hf)
            · cases h
    · rintro ⟨s, suffix, k, rfl, hk, hf⟩
      unfold reversePretty
      rw [List.getLast?_concat, List.dropLast_concat]
      simp only [(suffixValue_spec _ _).1 hk]
      rcases hf with hf | ⟨neg, n, x, r, hf, hb, hge⟩
      · rw [(pyFloat_infinity s).2 hf]; rfl
      · rw [(pyFloat_finite s _).2 ⟨neg, n, x, hf, rfl⟩]
        simp only [PyFloat.truncMul]
        rw [(bytesOf_iff neg n x k r).1 hb, hnat, if_neg (Nat.not_lt.2 hge)]
  have hidx : reversePretty v = .error .indexError ↔ v = [] := by
    constructor
    · intro h
      unfold reversePretty at h
      split at h
      · rename_i hl; exact List.getLast?_eq_none_iff.1 hl
      · split at h
        · cases h
        · split at h
          · cases h
          · unfold PyFloat.truncMul at h
            split at h
            · split at h <;> cases h
            · cases h
            · cases h
    · rintro rfl; rfl
  refine ⟨hunits, hinf, hidx, ?_⟩
  rw [← hinf]
  constructor
  · intro h
    refine ⟨?_, ?_, by rw [h]; simp⟩
    · rintro rfl; cases h
    · rintro ⟨i, hi⟩; rw [(hunits i).2 hi] at h; cases h
  · rintro ⟨h1, h2, h3⟩
    cases hr : reversePretty v with
    | ok i => exact absurd ⟨i, (hunits i).1 hr⟩ h2
    | error e =>
      unfold reversePretty at hr
      split at hr
      · rename_i hl; exact absurd (List.getLast?_eq_none_iff.1 hl) h1
      · rename_i suffix hl
        split at hr
        · exact hr.symm
        · split at hr
          · exact hr.symm
          · rename_i f hf
            cases f with
            | finite g =>
              simp only [PyFloat.truncMul] at hr
              split at hr
              · cases hr
              · rename_i k hk _ hnot
                cases hr
                refine absurd ?_ h3
                unfold reversePretty
                simp only [hl, hk, hf, PyFloat.truncMul, if_neg hnot]
            | infinity =>
              cases hr
              refine absurd ?_ h3
              rename_i k hk _
              unfold reversePretty
              simp only [hl, hk, hf, PyFloat.truncMul]
            | nan => cases hr; rfl

/-- `" +1_0 "` is ten, `"1_"`, `"1__0"` and `"12x"` are no numbers -/
example : IntText " +1_0 ".toList 10 ∧ (∀ i, ¬ IntText "1_".toList i) ∧ (∀ i, ¬ IntText "1__0".toList i) ∧ (∀ i, ¬ IntText "12x".toList i) ∧
    (∀ i, ¬ IntText "".toList i) := by
  refine ⟨(C72_int _ _).1 (by decide), ?_, ?_, ?_, ?_⟩ <;>
    (intro i h; rw [← C72_int] at h; revert h; rw [show pyInt _ = none from by decide]; simp)

/-- `1.5e1K` is 15360 bytes, `-0.1K` minus 102 bytes; `infinityB` and `1e400T` are infinite; `1.5.1K` and `nanB` are nothing -/
example : UnitsText "1.5e1K".toList 15360 ∧ UnitsText "-0.1K".toList (-102) ∧ InfiniteText "infinityB".toList ∧ InfiniteText "1e400T".toList ∧
    (¬ ∃ i, UnitsText "1.5.1K".toList i) ∧ ¬ InfiniteText "nanB".toList :=
  ⟨((C38_exact _).1 _).1 (by decide +kernel), ((C38_exact _).1 _).1 (by decide +kernel), (C38_exact _).2.1.1 (by decide +kernel),
    (C38_exact _).2.1.1 (by decide +kernel), ((C38_exact _).2.2.2.1 (by decide +kernel)).2.1, ((C38_exact _).2.2.2.1 (by decide +kernel)).2.2⟩

/-- the specification can be met without the model -/
example : IntText "\t-12".toList (-12) :=
  ⟨true, ['-'], ['1', '2'], by decide, ⟨by decide, by decide⟩, ⟨['\t'], ['-', '1', '2'], [], rfl, by simp [blank], by simp,
    .char _ _ _ (by decide) (.char _ _ _ (by decide) (.char _ _ _ (by decide) .nil))⟩, rfl⟩

end Bloscpack
