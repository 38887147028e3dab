import Verif.Spec.Literal
import Verif.Lemmas.Repr

/-! `ast.literal_eval` accepts exactly the texts of the grammar. -/
namespace Bloscpack
open Spec (HexDigit HexNumber Escape Quoted Decimal Blanks Literal Items Spells)

theorem chr_eq_iff {c : CodePoint} {n : Nat} (h : n < 1114112) : c = chr n ↔ c.val = n := by
  constructor
  · rintro rfl; exact val_chr h
  · rintro rfl; exact (chr_val c).symm

theorem ch_eq (c : Char) : Spec.ch c = chr c.toNat := rfl

theorem mem_chars {s : String} {c : CodePoint} : c ∈ Spec.chars s ↔ ∃ x ∈ s.toList, Spec.ch x = c := by
  unfold Spec.chars; rw [List.mem_map]

/-! ### hexadecimal numbers -/

theorem hexVal_iff (c : CodePoint) (d : Nat) : hexVal c = some d ↔ HexDigit c d := by
  constructor
  · intro h
    unfold hexVal at h
    have k : ∀ n : Nat, n < 1114112 → c.val = n → c = chr n := fun n h h' => (chr_eq_iff h).mpr h'
    have f1 : ∀ d < 10, (Spec.chars "0123456789abcdef")[d]? = some (chr (48 + d)) := by decide
    have f2 : ∀ d < 16, 10 ≤ d → (Spec.chars "0123456789abcdef")[d]? = some (chr (87 + d)) := by decide
    have f3 : ∀ d < 16, 10 ≤ d → (Spec.chars "0123456789ABCDEF")[d]? = some (chr (55 + d)) := by decide
    split at h
    · cases h
      left
      rw [f1 _ (by omega), ← k _ (by omega) (by omega)]
    · split at h
      · cases h
        left
        rw [f2 _ (by omega) (by omega), ← k _ (by omega) (by omega)]
      · split at h
        · cases h
          right
          rw [f3 _ (by omega) (by omega), ← k _ (by omega) (by omega)]
        · cases h
  · intro h
    have hd : d < 16 := by
      rcases h with h | h
      · have := (List.getElem?_eq_some_iff.mp h).1; exact this
      · have := (List.getElem?_eq_some_iff.mp h).1; exact this
    have k : ∀ d < 16, ((Spec.chars "0123456789abcdef")[d]?.bind hexVal = some d) ∧ ((Spec.chars "0123456789ABCDEF")[d]?.bind hexVal = some d) := by decide
    rcases h with h | h
    · have := (k d hd).1; rw [h] at this; exact this
    · have := (k d hd).2; rw [h] at this; exact this

theorem takeHex_snoc {n acc x d : Nat} {s r : PyStr} {c : CodePoint} (h : takeHex n acc s = some (x, c :: r)) (hd : hexVal c = some d) :
    takeHex (n + 1) acc s = some (16 * x + d, r) := by
  induction n generalizing acc s with
  | zero =>
    rw [takeHex] at h
    cases h
    rw [takeHex, hd]
    rfl
  | succ n ih =>
    cases s with
    | nil => rw [takeHex] at h; cases h
    | cons a s =>
      rw [takeHex] at h ⊢
      cases hv : hexVal a with
      | none => rw [hv] at h; cases h
      | some y =>
        rw [hv] at h
        exact ih h

theorem takeHex_complete {t : PyStr} {v : Nat} (h : HexNumber t v) (r : PyStr) : takeHex t.length 0 (t ++ r) = some (v, r) := by
  induction h generalizing r with
  | none => rfl
  | digit t v c d _ hd ih =>
    have := takeHex_snoc (ih (c :: r)) ((hexVal_iff c d).mpr hd)
    rw [List.length_append, List.length_singleton, List.append_assoc]
    exact this

theorem takeHex_sound {n acc x : Nat} {s r : PyStr} (h : takeHex n acc s = some (x, r)) {text : PyStr} (ht : HexNumber text acc) :
    ∃ t, s = t ++ r ∧ t.length = n ∧ HexNumber (text ++ t) x := by
  induction n generalizing acc s text with
  | zero =>
    rw [takeHex] at h
    cases h
    exact ⟨[], rfl, rfl, by simpa using ht⟩
  | succ n ih =>
    cases s with
    | nil => rw [takeHex] at h; cases h
    | cons a s =>
      rw [takeHex] at h
      cases hv : hexVal a with
      | none => rw [hv] at h; cases h
      | some y =>
        rw [hv] at h
        obtain ⟨t, h1, h2, h3⟩ := ih h (ht.digit _ _ a y ((hexVal_iff a y).mp hv))
        refine ⟨a :: t, by rw [h1]; rfl, by rw [List.length_cons, h2], ?_⟩
        rw [List.append_assoc] at h3
        exact h3

theorem hexEscape_iff (n : Nat) (s x r : PyStr) :
    hexEscape n s = some (x, r) ↔ ∃ t v, s = t ++ r ∧ t.length = n ∧ HexNumber t (Fin.val v) ∧ x = [v] := by
  unfold hexEscape
  constructor
  · intro h
    cases hx : takeHex n 0 s with
    | none => rw [hx] at h; cases h
    | some y =>
      obtain ⟨v, r'⟩ := y
      rw [hx] at h
      simp only at h
      split at h
      · rename_i hv
        cases h
        obtain ⟨t, h1, h2, h3⟩ := takeHex_sound hx .none
        exact ⟨t, chr v, h1, h2, by rw [val_chr hv]; exact h3, rfl⟩
      · cases h
  · rintro ⟨t, v, rfl, rfl, h, rfl⟩
    rw [takeHex_complete h]
    simp only [v.isLt, if_true, chr_val]

/-! ### escapes -/

theorem chars_same : Spec.chars "\\'\"" = [chr 92, chr 39, chr 34] := rfl
theorem chars_other : Spec.chars "\n\\'\"abtnvfrxuUN01234567" =
    [chr 10, chr 92, chr 39, chr 34, chr 97, chr 98, chr 116, chr 110, chr 118, chr 102, chr 114, chr 120, chr 117, chr 85, chr 78,
     chr 48, chr 49, chr 50, chr 51, chr 52, chr 53, chr 54, chr 55] := rfl
theorem chars_special : Spec.chars "\\\n\r\x00" = [chr 92, chr 10, chr 13, chr 0] := rfl
theorem chars_blank : Spec.chars " \t\n\r\x0c" = [chr 32, chr 9, chr 10, chr 13, chr 12] := rfl

theorem unescape_complete {e x : PyStr} (h : Escape e x) (r : PyStr) : unescape (e ++ r) = some (x, r) := by
  cases h with
  | newline => rfl
  | same c hc =>
    rw [chars_same] at hc
    simp only [List.mem_cons, List.not_mem_nil, or_false] at hc
    rcases hc with rfl | rfl | rfl <;> rfl
  | letter c v hc =>
    simp only [List.mem_cons, List.not_mem_nil, or_false, Prod.mk.injEq] at hc
    rcases hc with ⟨rfl, rfl⟩ | ⟨rfl, rfl⟩ | ⟨rfl, rfl⟩ | ⟨rfl, rfl⟩ | ⟨rfl, rfl⟩ | ⟨rfl, rfl⟩ | ⟨rfl, rfl⟩ <;> rfl
  | hex c n t v hc hn ht =>
    have h := (hexEscape_iff n (t ++ r) [v] r).mpr ⟨t, v, rfl, hn, ht, rfl⟩
    simp only [List.mem_cons, List.not_mem_nil, or_false, Prod.mk.injEq] at hc
    rcases hc with ⟨rfl, rfl⟩ | ⟨rfl, rfl⟩ | ⟨rfl, rfl⟩ <;> exact h
  | other c hc =>
    rw [chars_other] at hc
    simp only [List.mem_cons, List.not_mem_nil, or_false, not_or, chr_eq_iff, Nat.reduceLT] at hc
    rw [List.singleton_append, unescape]
    have h7 : ¬ (48 ≤ c.val ∧ c.val ≤ 55) := by omega
    simp only [hc, if_false, or_self, h7]
    rfl

theorem unescape_sound {s x r : PyStr} (h : unescape s = some (x, r)) : ∃ e, s = e ++ r ∧ Escape e x := by
  cases s with
  | nil => rw [unescape] at h; cases h
  | cons c s =>
    have k : ∀ n : Nat, n < 1114112 → c.val = n → c = chr n := fun n h h' => (chr_eq_iff h).mpr h'
    rw [unescape] at h
    by_cases h1 : c.val = 10
    · rw [if_pos h1] at h
      cases h
      rw [k 10 (by omega) h1]
      exact ⟨[chr 10], rfl, .newline⟩
    rw [if_neg h1] at h
    by_cases h2 : c.val = 92 ∨ c.val = 39 ∨ c.val = 34
    · rw [if_pos h2] at h
      cases h
      refine ⟨[c], rfl, .same c ?_⟩
      rw [chars_same]
      simp only [List.mem_cons, List.not_mem_nil, or_false, chr_eq_iff, Nat.reduceLT]
      exact h2
    rw [if_neg h2] at h
    have letter : ∀ n v, c.val = n → n < 1114112 → x = [chr v] → s = r →
        (chr n, v) ∈ [(Spec.ch 'a', 7), (Spec.ch 'b', 8), (Spec.ch 't', 9), (Spec.ch 'n', 10), (Spec.ch 'v', 11), (Spec.ch 'f', 12), (Spec.ch 'r', 13)] →
        ∃ e, c :: s = e ++ r ∧ Escape e x := by
      rintro n v h1 h2 rfl rfl h3
      rw [k n h2 h1]
      exact ⟨[chr n], rfl, .letter _ _ h3⟩
    have hex : ∀ n l, c.val = l → l < 1114112 → hexEscape n s = some (x, r) → (chr l, n) ∈ [(Spec.ch 'x', 2), (Spec.ch 'u', 4), (Spec.ch 'U', 8)] →
        ∃ e, c :: s = e ++ r ∧ Escape e x := by
      rintro n l h1 h2 h3 h4
      obtain ⟨t, v, rfl, h5, h6, rfl⟩ := (hexEscape_iff n s x r).mp h3
      rw [k l h2 h1]
      exact ⟨chr l :: t, rfl, .hex _ n t v h4 h5 h6⟩
    by_cases g97 : c.val = 97
    · rw [if_pos g97] at h; cases h; exact letter 97 7 g97 (by omega) rfl rfl (by decide)
    rw [if_neg g97] at h
    by_cases g98 : c.val = 98
    · rw [if_pos g98] at h; cases h; exact letter 98 8 g98 (by omega) rfl rfl (by decide)
    rw [if_neg g98] at h
    by_cases g102 : c.val = 102
    · rw [if_pos g102] at h; cases h; exact letter 102 12 g102 (by omega) rfl rfl (by decide)
    rw [if_neg g102] at h
    by_cases g110 : c.val = 110
    · rw [if_pos g110] at h; cases h; exact letter 110 10 g110 (by omega) rfl rfl (by decide)
    rw [if_neg g110] at h
    by_cases g114 : c.val = 114
    · rw [if_pos g114] at h; cases h; exact letter 114 13 g114 (by omega) rfl rfl (by decide)
    rw [if_neg g114] at h
    by_cases g116 : c.val = 116
    · rw [if_pos g116] at h; cases h; exact letter 116 9 g116 (by omega) rfl rfl (by decide)
    rw [if_neg g116] at h
    by_cases g118 : c.val = 118
    · rw [if_pos g118] at h; cases h; exact letter 118 11 g118 (by omega) rfl rfl (by decide)
    rw [if_neg g118] at h
    by_cases g120 : c.val = 120
    · rw [if_pos g120] at h; exact hex 2 120 g120 (by omega) h (by decide)
    rw [if_neg g120] at h
    by_cases g117 : c.val = 117
    · rw [if_pos g117] at h; exact hex 4 117 g117 (by omega) h (by decide)
    rw [if_neg g117] at h
    by_cases g85 : c.val = 85
    · rw [if_pos g85] at h; exact hex 8 85 g85 (by omega) h (by decide)
    rw [if_neg g85] at h
    by_cases g : (48 ≤ c.val ∧ c.val ≤ 55) ∨ c.val = 78
    · rw [if_pos g] at h; cases h
    · rw [if_neg g] at h
      cases h
      refine ⟨[c], rfl, .other c ?_⟩
      rw [chars_other]
      simp only [List.mem_cons, List.not_mem_nil, or_false, chr_eq_iff, Nat.reduceLT]
      omega

/-! ### strings -/

theorem scanLit_complete {quote : Nat} (hq : quote = 39 ∨ quote = 34) {t s : PyStr} (h : Quoted (chr quote) t s) (r : PyStr) (fuel : Nat)
    (hf : t.length < fuel) : scanLit quote fuel (t ++ chr quote :: r) = some (s, r) := by
  have hv : (chr quote).val = quote := val_chr (by omega)
  induction h generalizing fuel with
  | empty =>
    obtain ⟨f, rfl⟩ : ∃ f, fuel = f + 1 := ⟨fuel - 1, by simp at hf; omega⟩
    rw [List.nil_append, scanLit, if_pos hv]
  | plain c t s hc1 hc2 _ ih =>
    obtain ⟨f, rfl⟩ : ∃ f, fuel = f + 1 := ⟨fuel - 1, by simp at hf; omega⟩
    rw [chars_special] at hc2
    simp only [List.mem_cons, List.not_mem_nil, or_false, not_or, chr_eq_iff, Nat.reduceLT] at hc2
    have h1 : c.val ≠ quote := fun h => hc1 ((chr_eq_iff (by omega)).mpr h)
    rw [List.cons_append, scanLit, if_neg h1, if_neg hc2.1, if_neg (by omega), ih f (by simp at hf; omega)]
    rfl
  | escape e x t s he _ ih =>
    obtain ⟨f, rfl⟩ : ∃ f, fuel = f + 1 := ⟨fuel - 1, by simp at hf; omega⟩
    have h1 : (Spec.ch '\\').val ≠ quote := by show 92 ≠ quote; omega
    rw [List.cons_append, scanLit, if_neg h1, if_pos (show (Spec.ch '\\').val = 92 from rfl), List.append_assoc, unescape_complete he]
    simp only
    rw [ih f (by simp at hf; omega)]
    rfl

theorem scanLit_sound {quote : Nat} (hq : quote = 39 ∨ quote = 34) {fuel : Nat} {s x r : PyStr} (h : scanLit quote fuel s = some (x, r)) :
    ∃ t, s = t ++ chr quote :: r ∧ Quoted (chr quote) t x := by
  induction fuel generalizing s x with
  | zero => rw [scanLit] at h; cases h
  | succ f ih =>
    cases s with
    | nil => rw [scanLit] at h; cases h
    | cons c s =>
      rw [scanLit] at h
      split at h
      · rename_i h1
        cases h
        exact ⟨[], by rw [(chr_eq_iff (by omega)).mpr h1]; rfl, .empty⟩
      · rename_i h1
        split at h
        · rename_i h2
          cases hu : unescape s with
          | none => rw [hu] at h; cases h
          | some y =>
            obtain ⟨z, s'⟩ := y
            rw [hu] at h
            simp only [Option.map_eq_some_iff] at h
            obtain ⟨⟨y, r'⟩, h3, h4⟩ := h
            cases h4
            obtain ⟨e, rfl, he⟩ := unescape_sound hu
            obtain ⟨t, rfl, ht⟩ := ih h3
            refine ⟨chr 92 :: (e ++ t), ?_, .escape e z t y he ht⟩
            rw [(chr_eq_iff (by omega)).mpr h2, List.cons_append, List.append_assoc]
        · rename_i h2
          split at h
          · cases h
          · rename_i h3
            simp only [Option.map_eq_some_iff] at h
            obtain ⟨⟨y, r'⟩, h4, h5⟩ := h
            cases h5
            obtain ⟨t, rfl, ht⟩ := ih h4
            refine ⟨c :: t, rfl, .plain c t y ?_ ?_ ht⟩
            · intro h; exact h1 ((chr_eq_iff (by omega)).mp h)
            · rw [chars_special]
              simp only [List.mem_cons, List.not_mem_nil, or_false, not_or, chr_eq_iff, Nat.reduceLT]
              omega

/-- what follows an element: nothing, a blank, a comma or a closing bracket -/
def Delim (r : PyStr) : Prop := r.head?.all (fun d => isBlank d || d.val = 44 || d.val = 41 || d.val = 93) = true

theorem parseStrLit_complete {quote : Nat} (hq : quote = 39 ∨ quote = 34) {t s : PyStr} (h : Quoted (chr quote) t s) (r : PyStr) (hr : Delim r) :
    parseStrLit quote (t ++ chr quote :: r) = some (.str s, r) := by
  unfold parseStrLit
  rw [scanLit_complete hq h r _ (by rw [List.length_append]; omega)]
  simp only
  rw [if_neg]
  rintro ⟨-, h2⟩
  cases r with
  | nil => cases h2
  | cons c r =>
    simp only [Delim, List.head?_cons, Option.all_some, Option.any_some, decide_eq_true_eq, Bool.or_eq_true, isBlank] at hr h2
    omega

theorem parseStrLit_sound {quote : Nat} (hq : quote = 39 ∨ quote = 34) {s r : PyStr} {x : PyLit} (h : parseStrLit quote s = some (x, r)) :
    ∃ t y, s = t ++ chr quote :: r ∧ x = .str y ∧ Quoted (chr quote) t y := by
  unfold parseStrLit at h
  cases hs : scanLit quote (s.length + 1) s with
  | none => rw [hs] at h; cases h
  | some y =>
    obtain ⟨y, r'⟩ := y
    rw [hs] at h
    simp only at h
    split at h
    · cases h
    · cases h
      obtain ⟨t, h1, h2⟩ := scanLit_sound hq hs
      exact ⟨t, y, h1, rfl, h2⟩

/-! ### numbers -/

theorem digit_iff (c : CodePoint) (d : Nat) : (Spec.chars "0123456789")[d]? = some c ↔ c.val = 48 + d ∧ d < 10 := by
  have k : ∀ d < 10, (Spec.chars "0123456789")[d]? = some (chr (48 + d)) := by decide
  constructor
  · intro h
    have hd : d < 10 := (List.getElem?_eq_some_iff.mp h).1
    rw [k d hd] at h
    cases h
    exact ⟨val_chr (by omega), hd⟩
  · rintro ⟨h1, h2⟩
    rw [k d h2, ← (chr_eq_iff (by omega)).mpr h1]

theorem takeDecimal_complete {t : PyStr} {v : Nat} (h : Decimal t v) (r : PyStr) : takeDecimal (t ++ r) 0 = takeDecimal r v := by
  induction h generalizing r with
  | digit c d hd =>
    obtain ⟨h1, h2⟩ := (digit_iff c d).mp hd
    rw [List.singleton_append, takeDecimal, if_pos (by omega)]
    congr 1
    omega
  | more t v c d _ _ hd ih =>
    obtain ⟨h1, h2⟩ := (digit_iff c d).mp hd
    rw [List.append_assoc, ih, List.singleton_append, takeDecimal, if_pos (by omega)]
    congr 1
    omega

/-- a decimal number is a first digit and more; the first is not zero unless it is the only one -/
theorem Spec.Decimal.head {t : PyStr} {v : Nat} (h : Decimal t v) :
    ∃ c u, t = c :: u ∧ 48 ≤ c.val ∧ c.val ≤ 57 ∧ (c.val = 48 → u = [] ∧ v = 0) := by
  induction h with
  | digit c d hd =>
    obtain ⟨h1, h2⟩ := (digit_iff c d).mp hd
    exact ⟨c, [], rfl, by omega, by omega, fun h => ⟨rfl, by omega⟩⟩
  | more t v c d _ hv hd ih =>
    obtain ⟨c', u, rfl, h1, h2, h3⟩ := ih
    refine ⟨c', u ++ [c], rfl, h1, h2, fun h => ?_⟩
    exact absurd (h3 h).2 hv

theorem takeDecimal_delim {r : PyStr} (hr : Delim r) (v : Nat) : takeDecimal r v = (v, r) := by
  cases r with
  | nil => rfl
  | cons c r =>
    simp only [Delim, List.head?_cons, Option.all_some, decide_eq_true_eq, Bool.or_eq_true, isBlank] at hr
    rw [takeDecimal, if_neg (by omega)]

theorem parseNatLit_complete {t : PyStr} {v : Nat} (h : Decimal t v) (r : PyStr) (hr : Delim r) : parseNatLit (t ++ r) = some (v, r) := by
  have hc := takeDecimal_complete h r
  rw [takeDecimal_delim hr] at hc
  obtain ⟨c, u, rfl, h1, h2, h3⟩ := h.head
  rw [List.cons_append] at hc ⊢
  unfold parseNatLit
  by_cases h48 : c.val = 48
  · obtain ⟨rfl, rfl⟩ := h3 h48
    simp only [h48, if_true, List.nil_append]
    rw [if_pos ⟨by omega, by omega, hr⟩]
  · simp only [h48, if_false, hc]
    rw [if_pos ⟨by omega, by omega, hr⟩]

theorem takeDecimal_sound {s r : PyStr} {a v : Nat} (h : takeDecimal s a = (v, r)) {text : PyStr} (ht : Decimal text a) (ha : a ≠ 0) :
    ∃ t, s = t ++ r ∧ Decimal (text ++ t) v := by
  induction s generalizing a text with
  | nil =>
    rw [takeDecimal] at h
    cases h
    exact ⟨[], rfl, by simpa using ht⟩
  | cons c s ih =>
    rw [takeDecimal] at h
    split at h
    · rename_i hc
      obtain ⟨t, h1, h2⟩ := ih h (ht.more _ _ c (c.val - 48) ha ((digit_iff c _).mpr (by omega))) (by omega)
      refine ⟨c :: t, by rw [h1]; rfl, ?_⟩
      rw [List.append_assoc] at h2
      exact h2
    · cases h
      exact ⟨[], rfl, by simpa using ht⟩

theorem parseNatLit_sound {s r : PyStr} {v : Nat} (h : parseNatLit s = some (v, r)) : ∃ t, s = t ++ r ∧ Decimal t v ∧ Delim r := by
  cases s with
  | nil => rw [parseNatLit] at h; cases h
  | cons c s =>
    unfold parseNatLit at h
    by_cases h48 : c.val = 48
    · simp only [h48, if_true] at h
      split at h
      · rename_i hh
        cases h
        exact ⟨[c], rfl, .digit c 0 ((digit_iff c 0).mpr (by omega)), hh.2.2⟩
      · cases h
    · simp only [h48, if_false] at h
      split at h
      · rename_i hh
        have h' : takeDecimal (c :: s) 0 = (v, r) := by injection h
        rw [h'] at hh
        rw [takeDecimal, if_pos (by omega)] at h'
        have hd : Decimal [c] (10 * 0 + (c.val - 48)) := .digit c _ ((digit_iff c _).mpr (by omega))
        obtain ⟨t, h1, h2⟩ := takeDecimal_sound h' hd (by omega)
        exact ⟨c :: t, by rw [h1]; rfl, h2, hh.2.2⟩
      · cases h

/-! ### blanks -/

theorem isBlank_iff (c : CodePoint) : isBlank c = true ↔ c ∈ Spec.chars " \t\n\r\x0c" := by
  rw [chars_blank]
  simp only [isBlank, List.mem_cons, List.not_mem_nil, or_false, chr_eq_iff, Nat.reduceLT, Bool.or_eq_true, decide_eq_true_eq, or_assoc]

theorem skipBlank_blanks {b : PyStr} (hb : Blanks b) (r : PyStr) : skipBlank (b ++ r) = skipBlank r := by
  induction b with
  | nil => rfl
  | cons c b ih =>
    rw [List.cons_append, skipBlank, if_pos ((isBlank_iff c).mpr (hb c (by simp))), ih (fun x hx => hb x (by simp [hx]))]

theorem skipBlank_sound (s : PyStr) : ∃ b, Blanks b ∧ s = b ++ skipBlank s := by
  induction s with
  | nil => exact ⟨[], fun _ h => absurd h (by simp), rfl⟩
  | cons c s ih =>
    rw [skipBlank]
    split
    · rename_i h
      obtain ⟨b, h1, h2⟩ := ih
      refine ⟨c :: b, ?_, by rw [List.cons_append, ← h2]⟩
      intro x hx
      rcases List.mem_cons.mp hx with rfl | hx
      · exact (isBlank_iff _).mp h
      · exact h1 x hx
    · exact ⟨[], fun _ h => absurd h (by simp), rfl⟩

theorem delim_blanks {b r : PyStr} (hb : Blanks b) (hr : Delim r) : Delim (b ++ r) := by
  cases b with
  | nil => exact hr
  | cons c b =>
    have := (isBlank_iff c).mpr (hb c (by simp))
    simp [Delim, this]

/-! ### literals -/

/-- the first character of a literal -/
theorem Spec.Literal.head {t : PyStr} {x : PyLit} (h : Literal t x) : ∃ c u, t = c :: u ∧ isBlank c = false ∧ c ≠ chr 41 ∧ c ≠ chr 93 := by
  have dec : ∀ {t v}, Decimal t v → ∃ c u, t = c :: u ∧ isBlank c = false ∧ c ≠ chr 41 ∧ c ≠ chr 93 := by
    intro t v h
    obtain ⟨c, u, rfl, h1, h2, -⟩ := h.head
    refine ⟨c, u, rfl, ?_, ?_, ?_⟩
    · simp [isBlank]; omega
    · intro h; rw [chr_eq_iff (by omega)] at h; omega
    · intro h; rw [chr_eq_iff (by omega)] at h; omega
  cases h with
  | str quote t s hq _ =>
    refine ⟨quote, _, rfl, ?_⟩
    have : Spec.chars "'\"" = [chr 39, chr 34] := rfl
    rw [this] at hq
    simp only [List.mem_cons, List.not_mem_nil, or_false] at hq
    rcases hq with rfl | rfl <;> decide
  | nat t v h => exact dec h
  | neg t v h => exact ⟨_, _, rfl, by decide⟩
  | paren => exact ⟨_, _, rfl, by decide⟩
  | unit => exact ⟨_, _, rfl, by decide⟩
  | tuple => exact ⟨_, _, rfl, by decide⟩
  | list => exact ⟨_, _, rfl, by decide⟩

theorem skipBlank_literal {b t : PyStr} {x : PyLit} (hb : Blanks b) (h : Literal t x) (r : PyStr) : skipBlank (b ++ (t ++ r)) = t ++ r := by
  obtain ⟨c, u, rfl, h1, -⟩ := h.head
  rw [skipBlank_blanks hb, List.cons_append, skipBlank_cons h1]

theorem head_literal {t : PyStr} {x : PyLit} (h : Literal t x) (r : PyStr) (c : CodePoint) (hc : c = chr 41 ∨ c = chr 93) :
    (t ++ r).head? ≠ some c := by
  obtain ⟨d, u, rfl, -, h1, h2⟩ := h.head
  rw [List.cons_append, List.head?_cons]
  rintro ⟨⟩
  rcases hc with h | h
  · exact h1 h
  · exact h2 h

theorem Spec.Items.head {close : CodePoint} {u : PyStr} {l : List PyLit} (h : Items close u l) (hc : close = chr 41 ∨ close = chr 93) :
    ∃ c v, u = c :: v ∧ isBlank c = false := by
  cases h with
  | none => exact ⟨close, [], rfl, by rcases hc with rfl | rfl <;> decide⟩
  | one _ t b x h _ =>
    obtain ⟨c, v, rfl, h1, -⟩ := h.head
    exact ⟨c, _, rfl, h1⟩
  | more _ t b b' u x l h _ _ _ =>
    obtain ⟨c, v, rfl, h1, -⟩ := h.head
    exact ⟨c, _, rfl, h1⟩

theorem skipBlank_items {close : CodePoint} {b u : PyStr} {l : List PyLit} (hb : Blanks b) (h : Items close u l) (hc : close = chr 41 ∨ close = chr 93)
    (r : PyStr) : skipBlank (b ++ (u ++ r)) = u ++ r := by
  obtain ⟨c, v, rfl, h1⟩ := h.head hc
  rw [skipBlank_blanks hb, List.cons_append, skipBlank_cons h1]

theorem closes {close : Nat} (hc : close = 41 ∨ close = 93) : chr close = chr 41 ∨ chr close = chr 93 := by rcases hc with rfl | rfl <;> simp

theorem skipBlank_close {close : Nat} (hc : close = 41 ∨ close = 93) {b : PyStr} (hb : Blanks b) (r : PyStr) :
    skipBlank (b ++ chr close :: r) = chr close :: r := by
  rw [skipBlank_blanks hb, skipBlank_cons (by rcases hc with rfl | rfl <;> decide)]

theorem skipBlank_comma {b : PyStr} (hb : Blanks b) (r : PyStr) : skipBlank (b ++ chr 44 :: r) = chr 44 :: r := by
  rw [skipBlank_blanks hb, skipBlank_cons (by decide)]

theorem delim_close {close : Nat} (hc : close = 41 ∨ close = 93) (r : PyStr) : Delim (chr close :: r) := by
  rcases hc with rfl | rfl <;> simp [Delim, val_chr]
theorem delim_comma (r : PyStr) : Delim (chr 44 :: r) := by simp [Delim, val_chr]

/-- every text of the grammar is read -/
theorem parse_complete (fuel : Nat) :
    (∀ t x r, Literal t x → 2 * t.length ≤ fuel → Delim r → parseLit fuel (t ++ r) = some (x, r)) ∧
    (∀ close u l r, close = 41 ∨ close = 93 → Items (chr close) u l → 2 * u.length ≤ fuel → parseLits fuel close (u ++ r) = some (l, r)) := by
  induction fuel with
  | zero =>
    constructor
    · intro t x r h hf
      obtain ⟨c, u, rfl, -⟩ := h.head
      simp at hf
    · intro close u l r hc h hf
      obtain ⟨c, u, rfl, -⟩ := h.head (closes hc)
      simp at hf
  | succ f ih =>
    obtain ⟨ih1, ih2⟩ := ih
    constructor
    · intro t x r h hf hr
      cases h with
      | str quote t s hq h =>
        have : Spec.chars "'\"" = [chr 39, chr 34] := rfl
        rw [this] at hq
        simp only [List.mem_cons, List.not_mem_nil, or_false] at hq
        rw [List.cons_append, List.append_assoc, List.singleton_append, parseLit]
        rcases hq with rfl | rfl
        · rw [if_pos (by decide)]
          exact parseStrLit_complete (.inl rfl) h r hr
        · rw [if_pos (by decide)]
          exact parseStrLit_complete (.inr rfl) h r hr
      | nat t v h =>
        obtain ⟨c, u, rfl, h1, h2, -⟩ := h.head
        have := parseNatLit_complete h r hr
        rw [List.cons_append] at this ⊢
        rw [parseLit, if_neg (by omega), if_neg (by omega), if_neg (by omega), parseIntLit, if_neg (by omega), this]
        rfl
      | neg t v h =>
        have := parseNatLit_complete h r hr
        rw [List.cons_append, parseLit, if_neg (by decide), if_neg (by decide), if_neg (by decide), parseIntLit, if_pos (by decide), this]
        rfl
      | paren b t b' x hb h hb' =>
        simp only [List.length_cons, List.length_append, List.length_nil] at hf
        have e : Spec.ch ')' = chr 41 := rfl
        rw [List.cons_append, e, parseLit, if_neg (by decide), if_pos (by decide)]
        simp only [List.append_assoc, List.singleton_append]
        rw [skipBlank_literal hb h, if_neg (head_literal h _ _ (.inl rfl)),
          ih1 t x (b' ++ chr 41 :: r) h (by omega) (delim_blanks hb' (delim_close (.inl rfl) r))]
        simp only
        rw [skipBlank_close (.inl rfl) hb', if_pos List.head?_cons]
        rfl
      | unit b hb =>
        rw [List.cons_append, parseLit, if_neg (by decide), if_pos (by decide)]
        simp only [List.append_assoc, List.singleton_append]
        have := skipBlank_close (.inl rfl) hb r
        have e : Spec.ch ')' = chr 41 := rfl
        rw [e, this, if_pos List.head?_cons]
        rfl
      | tuple b t b' b'' u x l hb h hb' hb'' hu =>
        simp only [List.length_cons, List.length_append] at hf
        have e : Spec.ch ',' = chr 44 := rfl
        rw [List.cons_append, e, parseLit, if_neg (by decide), if_pos (by decide)]
        simp only [List.append_assoc, List.cons_append]
        rw [skipBlank_literal hb h, if_neg (head_literal h _ _ (.inl rfl)),
          ih1 t x (b' ++ chr 44 :: (b'' ++ (u ++ r))) h (by omega) (delim_blanks hb' (delim_comma _))]
        simp only
        rw [skipBlank_comma hb', if_neg (by simp [chr]), if_pos List.head?_cons]
        simp only [List.drop_succ_cons, List.drop_zero]
        rw [skipBlank_items hb'' hu (.inl rfl), ih2 41 u l r (.inl rfl) hu (by omega)]
        rfl
      | list b u l hb hu =>
        simp only [List.length_cons, List.length_append] at hf
        rw [List.cons_append, List.append_assoc, parseLit, if_neg (by decide), if_neg (by decide), if_pos (by decide),
          skipBlank_items hb hu (.inr rfl), ih2 93 u l r (.inr rfl) hu (by omega)]
        rfl
    · intro close u l r hc h hf
      cases h with
      | none => rw [List.singleton_append, parseLits, if_pos List.head?_cons]; rfl
      | one _ t b x h hb =>
        simp only [List.length_append, List.length_singleton] at hf
        rw [List.append_assoc, List.append_assoc, List.singleton_append, parseLits, if_neg (head_literal h _ _ (closes hc)),
          ih1 t x _ h (by omega) (delim_blanks hb (delim_close hc r))]
        simp only
        rw [skipBlank_close hc hb, if_pos List.head?_cons]
        rfl
      | more _ t b b' u x l h hb hb' hu =>
        simp only [List.length_append, List.length_cons] at hf
        have e : Spec.ch ',' = chr 44 := rfl
        rw [e]
        simp only [List.append_assoc, List.cons_append]
        rw [parseLits, if_neg (head_literal h _ _ (closes hc)), ih1 t x _ h (by omega) (delim_blanks hb (delim_comma _))]
        simp only
        rw [skipBlank_comma hb, if_neg (by rcases hc with rfl | rfl <;> simp [chr]), if_pos List.head?_cons]
        simp only [List.drop_succ_cons, List.drop_zero]
        rw [skipBlank_items hb' hu (closes hc), ih2 close u l r hc hu (by omega)]
        rfl

theorem head_drop {s : PyStr} {c : CodePoint} (h : s.head? = some c) : s = c :: s.drop 1 := by
  cases s with
  | nil => cases h
  | cons a s => cases h; rfl

/-- what is read is a text of the grammar -/
theorem parse_sound (fuel : Nat) :
    (∀ s x r, parseLit fuel s = some (x, r) → ∃ t, s = t ++ r ∧ Literal t x) ∧
    (∀ close s l r, close = 41 ∨ close = 93 → parseLits fuel close s = some (l, r) → ∃ u, s = u ++ r ∧ Items (chr close) u l) := by
  induction fuel with
  | zero =>
    constructor
    · intro s x r h; rw [parseLit] at h; cases h
    · intro close s l r _ h; rw [parseLits] at h; cases h
  | succ f ih =>
    obtain ⟨ih1, ih2⟩ := ih
    constructor
    · intro s x r h
      cases s with
      | nil => rw [parseLit] at h; cases h
      | cons c s =>
        have k : ∀ n : Nat, n < 1114112 → c.val = n → c = chr n := fun n h h' => (chr_eq_iff h).mpr h'
        rw [parseLit] at h
        by_cases h1 : c.val = 39 ∨ c.val = 34
        · rw [if_pos h1] at h
          obtain ⟨t, y, rfl, rfl, h2⟩ := parseStrLit_sound h1 h
          refine ⟨c :: (t ++ [c]), by simp [chr_val], ?_⟩
          rw [chr_val] at h2
          refine .str c t y ?_ h2
          have : Spec.chars "'\"" = [chr 39, chr 34] := rfl
          rw [this]
          simp only [List.mem_cons, List.not_mem_nil, or_false, chr_eq_iff, Nat.reduceLT]
          exact h1
        rw [if_neg h1] at h
        by_cases h2 : c.val = 40
        · rw [if_pos h2] at h
          rw [k 40 (by omega) h2]
          obtain ⟨b, hb, hs⟩ := skipBlank_sound s
          by_cases h3 : (skipBlank s).head? = some (chr 41)
          · rw [if_pos h3] at h
            cases h
            refine ⟨chr 40 :: (b ++ [chr 41]), ?_, .unit b hb⟩
            conv => lhs; rw [hs, head_drop h3]
            simp
          rw [if_neg h3] at h
          cases hp : parseLit f (skipBlank s) with
          | none => rw [hp] at h; cases h
          | some y =>
            obtain ⟨y, r1⟩ := y
            rw [hp] at h
            simp only at h
            obtain ⟨t, ht, hl⟩ := ih1 _ _ _ hp
            obtain ⟨b', hb', hs'⟩ := skipBlank_sound r1
            by_cases h4 : (skipBlank r1).head? = some (chr 41)
            · rw [if_pos h4] at h
              cases h
              refine ⟨chr 40 :: (b ++ (t ++ (b' ++ [chr 41]))), ?_, .paren b t b' _ hb hl hb'⟩
              conv => lhs; rw [hs, ht, hs', head_drop h4]
              simp
            rw [if_neg h4] at h
            by_cases h5 : (skipBlank r1).head? = some (chr 44)
            · rw [if_pos h5, Option.map_eq_some_iff] at h
              obtain ⟨⟨l, r2⟩, h6, h7⟩ := h
              cases h7
              obtain ⟨u, hu, hi⟩ := ih2 41 _ _ _ (.inl rfl) h6
              obtain ⟨b'', hb'', hs''⟩ := skipBlank_sound ((skipBlank r1).drop 1)
              refine ⟨chr 40 :: (b ++ (t ++ (b' ++ chr 44 :: (b'' ++ u)))), ?_, .tuple b t b' b'' u _ l hb hl hb' hb'' hi⟩
              conv => lhs; rw [hs, ht, hs', head_drop h5, hs'', hu]
              simp
            · rw [if_neg h5] at h; cases h
        rw [if_neg h2] at h
        by_cases h3 : c.val = 91
        · rw [if_pos h3, Option.map_eq_some_iff] at h
          obtain ⟨⟨l, r2⟩, h6, h7⟩ := h
          cases h7
          obtain ⟨b, hb, hs⟩ := skipBlank_sound s
          obtain ⟨u, hu, hi⟩ := ih2 93 _ _ _ (.inr rfl) h6
          refine ⟨chr 91 :: (b ++ u), ?_, .list b u l hb hi⟩
          rw [k 91 (by omega) h3]
          conv => lhs; rw [hs, hu]
          simp
        rw [if_neg h3, parseIntLit] at h
        by_cases h4 : c.val = 45
        · rw [if_pos h4, Option.map_eq_some_iff] at h
          obtain ⟨⟨v, r2⟩, h6, h7⟩ := h
          cases h7
          obtain ⟨t, rfl, hd, -⟩ := parseNatLit_sound h6
          refine ⟨chr 45 :: t, ?_, .neg t v hd⟩
          rw [k 45 (by omega) h4]
          rfl
        · rw [if_neg h4, Option.map_eq_some_iff] at h
          obtain ⟨⟨v, r2⟩, h6, h7⟩ := h
          cases h7
          obtain ⟨t, h8, hd, -⟩ := parseNatLit_sound h6
          exact ⟨t, h8, .nat t v hd⟩
    · intro close s l r hc h
      rw [parseLits] at h
      by_cases h1 : s.head? = some (chr close)
      · rw [if_pos h1] at h
        cases h
        exact ⟨[chr close], head_drop h1, .none _⟩
      rw [if_neg h1] at h
      cases hp : parseLit f s with
      | none => rw [hp] at h; cases h
      | some y =>
        obtain ⟨y, r1⟩ := y
        rw [hp] at h
        simp only at h
        obtain ⟨t, ht, hl⟩ := ih1 _ _ _ hp
        obtain ⟨b, hb, hs⟩ := skipBlank_sound r1
        by_cases h4 : (skipBlank r1).head? = some (chr close)
        · rw [if_pos h4] at h
          cases h
          refine ⟨t ++ (b ++ [chr close]), ?_, .one _ t b _ hl hb⟩
          conv => lhs; rw [ht, hs, head_drop h4]
          simp
        rw [if_neg h4] at h
        by_cases h5 : (skipBlank r1).head? = some (chr 44)
        · rw [if_pos h5, Option.map_eq_some_iff] at h
          obtain ⟨⟨l, r2⟩, h6, h7⟩ := h
          cases h7
          obtain ⟨u, hu, hi⟩ := ih2 close _ _ _ hc h6
          obtain ⟨b', hb', hs'⟩ := skipBlank_sound ((skipBlank r1).drop 1)
          refine ⟨t ++ (b ++ chr 44 :: (b' ++ u)), ?_, .more _ t b b' u _ l hl hb hb' hi⟩
          conv => lhs; rw [ht, hs, head_drop h5, hs', hu]
          simp
        · rw [if_neg h5] at h; cases h

theorem skipBlank_eq_nil {s : PyStr} : skipBlank s = [] ↔ Blanks s := by
  constructor
  · intro h
    obtain ⟨b, hb, hs⟩ := skipBlank_sound s
    rw [h, List.append_nil] at hs
    rw [hs]
    exact hb
  · intro h
    have := skipBlank_blanks h []
    rw [List.append_nil] at this
    exact this

/-- `ast.literal_eval` accepts exactly the texts of the grammar, with the values they spell -/
theorem literalEval_iff (s : PyStr) (x : PyLit) : literalEval s = some x ↔ Spells s x := by
  have hsp : ∀ c : CodePoint, (c.val = 32 || c.val = 9) = true ↔ c ∈ Spec.chars " \t" := by
    intro c
    have : Spec.chars " \t" = [chr 32, chr 9] := rfl
    rw [this]
    simp only [List.mem_cons, List.not_mem_nil, or_false, chr_eq_iff, Nat.reduceLT, Bool.or_eq_true, decide_eq_true_eq]
  unfold literalEval
  constructor
  · intro h
    cases hp : parseLit (2 * s.length + 2) (s.dropWhile (fun c => c.val = 32 || c.val = 9)) with
    | none => rw [hp] at h; cases h
    | some y =>
      obtain ⟨y, r⟩ := y
      rw [hp] at h
      simp only at h
      split at h
      · rename_i hb
        cases h
        obtain ⟨t, ht, hl⟩ := (parse_sound _).1 _ _ _ hp
        refine ⟨s.takeWhile (fun c => c.val = 32 || c.val = 9), t, r, ?_, ?_, hl, skipBlank_eq_nil.mp hb⟩
        · rw [← ht, List.takeWhile_append_dropWhile]
        · intro c hc
          have := List.all_eq_true.mp (List.all_takeWhile (p := fun c : CodePoint => c.val = 32 || c.val = 9) (l := s)) c hc
          exact (hsp c).mp this
      · cases h
  · rintro ⟨b, t, b', rfl, hb, hl, hb'⟩
    have hd : (b ++ (t ++ b')).dropWhile (fun c => c.val = 32 || c.val = 9) = t ++ b' := by
      rw [List.dropWhile_append_of_pos (fun c hc => (hsp c).mpr (hb c hc))]
      obtain ⟨c, u, rfl, h1, -⟩ := hl.head
      rw [List.cons_append, List.dropWhile_cons, if_neg]
      intro h
      simp [isBlank] at h1 h
      omega
    have hdl : Delim b' := by
      have := delim_blanks hb' (r := []) rfl
      rwa [List.append_nil] at this
    rw [hd, (parse_complete _).1 t x b' hl (by simp only [List.length_append]; omega) hdl]
    simp only [skipBlank_eq_nil.mpr hb', if_true]

end Bloscpack
