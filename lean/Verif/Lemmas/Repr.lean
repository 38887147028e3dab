import Verif.Model.Repr
import Verif.Props.Json
/-
`ast.literal_eval` inverts `repr`.
-/
namespace Bloscpack

theorem val_chr {n : Nat} (h : n < 1114112) : (chr n).val = n := by
  simp [chr, Fin.ofNat, Nat.mod_eq_of_lt h]

theorem hexVal_hexCode : ∀ d < 16, hexVal (hexCode d) = some d := by decide

theorem takeHex_hexText (n v acc : Nat) (r : PyStr) : takeHex n acc (hexText n v ++ r) = some (acc * 16 ^ n + v % 16 ^ n, r) := by
  induction n generalizing acc with
  | zero => simp [takeHex, hexText, Nat.mod_one]
  | succ n ih =>
    rw [hexText, List.cons_append, takeHex, hexVal_hexCode _ (Nat.mod_lt _ (by omega))]
    simp only
    rw [ih]
    have : v % 16 ^ (n + 1) = (v / 16 ^ n % 16) * 16 ^ n + v % 16 ^ n := by
      rw [Nat.pow_succ, Nat.mod_mul, Nat.mul_comm, Nat.add_comm]
    rw [this, Nat.add_mul, Nat.pow_succ]
    congr 2
    rw [Nat.mul_comm 16 acc, Nat.mul_assoc, Nat.mul_comm 16, Nat.add_assoc]

theorem hexEscape_hexText (n : Nat) (c : CodePoint) (r : PyStr) (h : c.val < 16 ^ n) : hexEscape n (hexText n c.val ++ r) = some ([c], r) := by
  unfold hexEscape
  rw [takeHex_hexText]
  simp only [Nat.zero_mul, Nat.zero_add, Nat.mod_eq_of_lt h, c.isLt, if_true, chr_val]

/-- one escaped character is read back -/
theorem scanLit_char (printable : CodePoint → Bool) (quote : Nat) (hq : quote = 39 ∨ quote = 34) (c : CodePoint) (fuel : Nat) (r : PyStr) :
    scanLit quote (fuel + 1) (reprChar printable quote c ++ r) = (scanLit quote fuel r).map (fun y => (c :: y.1, y.2)) := by
  have esc : ∀ (t : PyStr), unescape (t ++ r) = some ([c], r) → scanLit quote (fuel + 1) (chr 92 :: t ++ r) =
      (scanLit quote fuel r).map (fun y => (c :: y.1, y.2)) := by
    intro t ht
    rw [List.cons_append, scanLit, if_neg (by rw [val_chr (by omega)]; omega), if_pos (by decide), ht]
    rfl
  have simple : ∀ (e : Nat) (hc : c.val = e) (l : Nat), unescape (chr l :: r) = some ([chr e], r) → scanLit quote (fuel + 1) ([chr 92, chr l] ++ r) =
      (scanLit quote fuel r).map (fun y => (c :: y.1, y.2)) := by
    intro e hc l h
    exact esc [chr l] (by rw [List.singleton_append, h, ← hc, chr_val])
  have plain : c.val ≠ quote → c.val ≠ 92 → ¬ (c.val = 10 ∨ c.val = 13 ∨ c.val = 0) → scanLit quote (fuel + 1) ([c] ++ r) =
      (scanLit quote fuel r).map (fun y => (c :: y.1, y.2)) := by
    intro h1 h2 h3
    rw [List.singleton_append, scanLit, if_neg h1, if_neg h2, if_neg h3]
  have hx : ∀ n l, c.val < 16 ^ n → unescape (chr l :: (hexText n c.val ++ r)) = hexEscape n (hexText n c.val ++ r) →
      scanLit quote (fuel + 1) (chr 92 :: chr l :: hexText n c.val ++ r) = (scanLit quote fuel r).map (fun y => (c :: y.1, y.2)) := by
    intro n l h1 h2
    refine esc (chr l :: hexText n c.val) ?_
    rw [List.cons_append, h2, hexEscape_hexText n c r h1]
  have u2 : ∀ t, unescape (chr 120 :: t) = hexEscape 2 t := by intro t; simp [unescape, val_chr]
  have u4 : ∀ t, unescape (chr 117 :: t) = hexEscape 4 t := by intro t; simp [unescape, val_chr]
  have u8 : ∀ t, unescape (chr 85 :: t) = hexEscape 8 t := by intro t; simp [unescape, val_chr]
  unfold reprChar
  split
  · rename_i h
    refine esc [c] ?_
    rw [List.singleton_append, unescape, if_neg (by omega), if_pos (by omega)]
  split
  · rename_i h; exact simple 9 h 116 (by simp [unescape, val_chr])
  split
  · rename_i h; exact simple 10 h 110 (by simp [unescape, val_chr])
  split
  · rename_i h; exact simple 13 h 114 (by simp [unescape, val_chr])
  split
  · exact hx 2 120 (by omega) (u2 _)
  split
  · exact plain (by omega) (by omega) (by omega)
  split
  · exact plain (by omega) (by omega) (by omega)
  split
  · exact hx 2 120 (by omega) (u2 _)
  split
  · exact hx 4 117 (by omega) (u4 _)
  · exact hx 8 85 (by have := c.isLt; omega) (u8 _)

theorem reprChar_length (printable : CodePoint → Bool) (quote : Nat) (c : CodePoint) : 1 ≤ (reprChar printable quote c).length := by
  unfold reprChar
  repeat' split
  all_goals simp

theorem scanLit_str (printable : CodePoint → Bool) (quote : Nat) (hq : quote = 39 ∨ quote = 34) (s : PyStr) (fuel : Nat) (rest : PyStr)
    (h : s.length < fuel) : scanLit quote fuel (s.flatMap (reprChar printable quote) ++ chr quote :: rest) = some (s, rest) := by
  induction s generalizing fuel with
  | nil =>
    obtain ⟨f, rfl⟩ : ∃ f, fuel = f + 1 := ⟨fuel - 1, by simp at h; omega⟩
    rw [List.flatMap_nil, List.nil_append, scanLit, if_pos (val_chr (by omega))]
  | cons c s ih =>
    obtain ⟨f, rfl⟩ : ∃ f, fuel = f + 1 := ⟨fuel - 1, by simp at h; omega⟩
    rw [List.flatMap_cons, List.append_assoc, scanLit_char printable quote hq, ih f (by simp at h; omega)]
    rfl

theorem flatMap_length_ge (printable : CodePoint → Bool) (quote : Nat) (s : PyStr) : s.length ≤ (s.flatMap (reprChar printable quote)).length := by
  induction s with
  | nil => simp
  | cons c s ih => have := reprChar_length printable quote c; rw [List.flatMap_cons, List.length_append, List.length_cons]; omega

/-- what may follow an element: the end, a comma or a closing bracket -/
def Closed (rest : PyStr) : Prop := rest = [] ∨ ∃ c r, rest = c :: r ∧ (c = chr 44 ∨ c = chr 41 ∨ c = chr 93)

theorem parseStrLit_repr (printable : CodePoint → Bool) (s : PyStr) (rest : PyStr) (hr : Closed rest) :
    parseStrLit (reprQuote s) (s.flatMap (reprChar printable (reprQuote s)) ++ [chr (reprQuote s)] ++ rest) = some (.str s, rest) := by
  have hq : reprQuote s = 39 ∨ reprQuote s = 34 := by unfold reprQuote; split <;> simp
  have hl := flatMap_length_ge printable (reprQuote s) s
  unfold parseStrLit
  rw [List.append_assoc, List.singleton_append, scanLit_str printable _ hq _ _ _ (by rw [List.length_append]; omega)]
  simp only
  rw [if_neg]
  rintro ⟨-, h⟩
  rcases hr with rfl | ⟨c, r, rfl, h'⟩
  · cases h
  · simp only [List.head?_cons, Option.any_some, decide_eq_true_eq] at h
    rcases h' with rfl | rfl | rfl <;> rw [val_chr (by omega)] at h <;> omega

theorem takeDecimal_digits (ds : List Char) (rest : PyStr) (hd : ∀ c ∈ ds, c.isDigit = true)
    (hr : ∀ c ∈ rest.head?, ¬ (48 ≤ c.val ∧ c.val ≤ 57)) (v : Nat) :
    takeDecimal (ds.map (fun c => chr c.toNat) ++ rest) v = (ds.foldl (fun v c => 10 * v + (c.toNat - 48)) v, rest) := by
  induction ds generalizing v with
  | nil =>
    cases rest with
    | nil => rfl
    | cons c cs => rw [List.map_nil, List.nil_append, takeDecimal, if_neg (hr c (by simp))]; rfl
  | cons c cs ih =>
    have h1 : 48 ≤ c.toNat ∧ c.toNat ≤ 57 := by
      have := hd c List.mem_cons_self
      simp only [Char.isDigit, Bool.and_eq_true, decide_eq_true_eq] at this
      exact ⟨this.1, this.2⟩
    have h2 : (chr c.toNat).val = c.toNat := val_chr (by omega)
    rw [List.map_cons, List.cons_append, takeDecimal, if_pos (by rw [h2]; exact h1), ih (fun x hx => hd x (List.mem_cons_of_mem _ hx)), h2]
    rfl

theorem Closed.head (rest : PyStr) (h : Closed rest) : rest.head?.all (fun d => isBlank d || d.val = 44 || d.val = 41 || d.val = 93) ∧
    ∀ c ∈ rest.head?, ¬ (48 ≤ c.val ∧ c.val ≤ 57) := by
  rcases h with rfl | ⟨c, r, rfl, rfl | rfl | rfl⟩
  · exact ⟨rfl, by simp⟩
  all_goals
    refine ⟨by simp only [List.head?_cons]; decide, ?_⟩
    intro c hc
    simp only [List.head?_cons, Option.mem_some_iff] at hc
    subst hc
    decide

theorem parseNatLit_repr (n : Nat) (rest : PyStr) (hr : Closed rest) :
    parseNatLit ((Nat.toDigits 10 n).map (fun c => chr c.toNat) ++ rest) = some (n, rest) := by
  have hd : ∀ c ∈ Nat.toDigits 10 n, c.isDigit = true := fun c hc => Nat.isDigit_of_mem_toDigits (by omega) (by omega) hc
  have hv : (Nat.toDigits 10 n).foldl (fun v c => 10 * v + (c.toNat - 48)) 0 = n := by
    have := Nat.ofDigitChars_toDigits (b := 10) (n := n) (by omega) (by omega)
    rw [Nat.ofDigitChars_eq_foldl] at this
    exact this
  obtain ⟨h1, h2⟩ := hr.head
  have ht := takeDecimal_digits _ rest hd h2 0
  rw [hv] at ht
  by_cases hn : n = 0
  · subst hn
    have : (Nat.toDigits 10 0).map (fun c => chr c.toNat) = [chr 48] := by decide
    rw [this, List.singleton_append, parseNatLit]
    rw [if_pos (show (chr 48).val = 48 from rfl), if_pos ⟨by decide, by decide, h1⟩]
  · cases hc : Nat.toDigits 10 n with
    | nil => exact absurd hc Nat.toDigits_ne_nil
    | cons c cs =>
      have hcd : c.isDigit = true := hd c (by rw [hc]; exact List.mem_cons_self)
      have h3 : 48 ≤ c.toNat ∧ c.toNat ≤ 57 := by
        simp only [Char.isDigit, Bool.and_eq_true, decide_eq_true_eq] at hcd
        exact ⟨hcd.1, hcd.2⟩
      have h4 : (chr c.toNat).val = c.toNat := val_chr (by omega)
      have h5 : c.toNat ≠ 48 := by
        intro h
        obtain ⟨c', r, e1, e2⟩ := toDigits_head n (by omega)
        rw [hc] at e1
        cases e1
        exact e2 (Char.toNat_inj.1 h)
      rw [hc, List.map_cons, List.cons_append] at ht
      rw [List.map_cons, List.cons_append, parseNatLit]
      rw [if_neg (show ¬ (chr c.toNat).val = 48 by rw [h4]; exact h5), ht, if_pos ⟨by rw [h4]; exact h3.1, by rw [h4]; exact h3.2, h1⟩]

theorem parseIntLit_repr (i : Int) (rest : PyStr) (hr : Closed rest) : parseIntLit (reprInt i ++ rest) = some (.int i, rest) := by
  unfold reprInt dumpsInt
  have h := parseNatLit_repr i.natAbs rest hr
  split
  · rw [List.map_cons, List.cons_append, parseIntLit, if_pos (by decide), h]
    simp only [Option.map_some, Option.some.injEq, Prod.mk.injEq, PyLit.int.injEq, and_true]
    omega
  · cases hc : Nat.toDigits 10 i.natAbs with
    | nil => exact absurd hc Nat.toDigits_ne_nil
    | cons c cs =>
      have hcd : c.isDigit = true := Nat.isDigit_of_mem_toDigits (b := 10) (n := i.natAbs) (by omega) (by omega) (by rw [hc]; exact List.mem_cons_self)
      have h3 : 48 ≤ c.toNat ∧ c.toNat ≤ 57 := by
        simp only [Char.isDigit, Bool.and_eq_true, decide_eq_true_eq] at hcd
        exact ⟨hcd.1, hcd.2⟩
      have h4 : (chr c.toNat).val = c.toNat := val_chr (by omega)
      rw [hc, List.map_cons, List.cons_append] at h
      rw [List.map_cons, List.cons_append, parseIntLit, if_neg (by rw [h4]; omega), h]
      simp only [Option.map_some, Option.some.injEq, Prod.mk.injEq, PyLit.int.injEq, and_true]
      omega

theorem skipBlank_cons {c : CodePoint} (h : isBlank c = false) (r : PyStr) : skipBlank (c :: r) = c :: r := by
  rw [skipBlank, h]; rfl

/-- what the text of a literal starts with -/
theorem reprLit_head (printable : CodePoint → Bool) (x : PyLit) : ∃ c r, reprLit printable x = c :: r ∧ isBlank c = false ∧ c ≠ chr 41 ∧ c ≠ chr 93 := by
  match x with
  | .str s =>
    rw [reprLit, reprStr]
    refine ⟨_, _, rfl, ?_⟩
    unfold reprQuote
    split <;> decide
  | .int i =>
    rw [reprLit, reprInt, dumpsInt]
    split
    · exact ⟨_, _, rfl, by decide⟩
    · cases hc : Nat.toDigits 10 i.natAbs with
      | nil => exact absurd hc Nat.toDigits_ne_nil
      | cons c cs =>
        have hcd : c.isDigit = true := Nat.isDigit_of_mem_toDigits (b := 10) (n := i.natAbs) (by omega) (by omega) (by rw [hc]; exact List.mem_cons_self)
        have h3 : 48 ≤ c.toNat ∧ c.toNat ≤ 57 := by
          simp only [Char.isDigit, Bool.and_eq_true, decide_eq_true_eq] at hcd
          exact ⟨hcd.1, hcd.2⟩
        have h4 : (chr c.toNat).val = c.toNat := val_chr (by omega)
        refine ⟨chr c.toNat, _, rfl, ?_, ?_, ?_⟩
        · simp [isBlank, h4]; omega
        · intro h; rw [h, val_chr (by omega)] at h4; omega
        · intro h; rw [h, val_chr (by omega)] at h4; omega
  | .tuple [] => exact ⟨_, _, by rw [reprLit]; simp, by decide⟩
  | .tuple [x] => exact ⟨_, _, by rw [reprLit], by decide⟩
  | .tuple (x :: y :: l) => exact ⟨_, _, by rw [reprLit]; simp, by decide⟩
  | .list l => exact ⟨_, _, by rw [reprLit], by decide⟩

theorem reprLit_length (printable : CodePoint → Bool) (x : PyLit) : 1 ≤ (reprLit printable x).length := by
  obtain ⟨c, r, h, -⟩ := reprLit_head printable x
  rw [h]; simp

theorem skipBlank_repr (printable : CodePoint → Bool) (x : PyLit) (r : PyStr) : skipBlank (reprLit printable x ++ r) = reprLit printable x ++ r := by
  obtain ⟨c, t, h, hb, -⟩ := reprLit_head printable x
  rw [h, List.cons_append, skipBlank_cons hb]

theorem head_repr (printable : CodePoint → Bool) (x : PyLit) (r : PyStr) (c : CodePoint) (hc : c = chr 41 ∨ c = chr 93) :
    (reprLit printable x ++ r).head? ≠ some c := by
  obtain ⟨d, t, h, -, h1, h2⟩ := reprLit_head printable x
  rw [h, List.cons_append, List.head?_cons]
  rintro ⟨⟩
  rcases hc with h | h
  · exact h1 h
  · exact h2 h

theorem closed_cons (c : CodePoint) (r : PyStr) (h : c = chr 44 ∨ c = chr 41 ∨ c = chr 93) : Closed (c :: r) := .inr ⟨c, r, rfl, h⟩

mutual
theorem parseLit_repr (printable : CodePoint → Bool) (x : PyLit) (fuel : Nat) (rest : PyStr) (hf : 2 * (reprLit printable x).length ≤ fuel)
    (hr : Closed rest) : parseLit fuel (reprLit printable x ++ rest) = some (x, rest) := by
  obtain ⟨f, rfl⟩ : ∃ f, fuel = f + 1 := ⟨fuel - 1, by have := reprLit_length printable x; omega⟩
  match x with
  | .str s =>
    have hq : reprQuote s = 39 ∨ reprQuote s = 34 := by unfold reprQuote; split <;> simp
    have hv : (chr (reprQuote s)).val = reprQuote s := val_chr (by omega)
    rw [reprLit, reprStr, List.cons_append, parseLit, if_pos (by rw [hv]; exact hq), hv, parseStrLit_repr printable s rest hr]
  | .int i =>
    have h := parseIntLit_repr i rest hr
    obtain ⟨c, r, hc, -, hc1, hc2⟩ := reprLit_head printable (.int i)
    have : c.val = 45 ∨ (48 ≤ c.val ∧ c.val ≤ 57) := by
      rw [reprLit] at hc
      rw [hc, List.cons_append, parseIntLit] at h
      by_cases h45 : c.val = 45
      · exact .inl h45
      · rw [if_neg h45, Option.map_eq_some_iff] at h
        obtain ⟨y, h, -⟩ := h
        unfold parseNatLit at h
        simp only at h
        generalize (if c.val = 48 then (0, r ++ rest) else takeDecimal (c :: (r ++ rest)) 0) = z at h
        split at h
        · rename_i hh; exact .inr ⟨hh.1, hh.2.1⟩
        · cases h
    rw [reprLit] at hc ⊢
    rw [hc, List.cons_append] at h ⊢
    rw [parseLit, if_neg (by omega), if_neg (by omega), if_neg (by omega), h]
  | .tuple [] =>
    rw [reprLit, reprLits]
    simp only [List.nil_append, List.cons_append]
    rw [parseLit, if_neg (by decide), if_pos (by decide), skipBlank_cons (by decide), if_pos List.head?_cons]
    rfl
    simp
  | .tuple [x] =>
    rw [reprLit] at hf ⊢
    simp only [List.length_cons, List.length_append, List.length_nil] at hf
    obtain ⟨f', rfl⟩ : ∃ f', f = f' + 1 := ⟨f - 1, by omega⟩
    have h1 := parseLit_repr printable x (f' + 1) (chr 44 :: chr 41 :: rest) (by omega) (closed_cons _ _ (.inl rfl))
    rw [List.cons_append, List.append_assoc, parseLit, if_neg (by decide), if_pos (by decide), skipBlank_repr, if_neg (head_repr _ _ _ _ (.inl rfl))]
    simp only [List.cons_append, List.nil_append]
    rw [h1]
    simp only
    rw [skipBlank_cons (by decide), if_neg (by simp [chr]), if_pos List.head?_cons]
    simp only [List.drop_succ_cons, List.drop_zero]
    rw [skipBlank_cons (by decide), parseLits, if_pos List.head?_cons]
    rfl
  | .tuple (x :: y :: l) =>
    rw [reprLit] at hf ⊢
    · rw [reprLits] at hf ⊢
      simp only [List.isEmpty_cons, Bool.false_eq_true, if_false, List.length_cons, List.length_append, List.length_nil] at hf
      have h1 := parseLit_repr printable x f (chr 44 :: chr 32 :: (reprLits printable (y :: l) ++ chr 41 :: rest)) (by omega) (closed_cons _ _ (.inl rfl))
      have h2 := parseLits_repr printable (y :: l) f 41 rest (by omega) (.inl rfl)
      simp only [List.isEmpty_cons, Bool.false_eq_true, if_false, List.cons_append, List.append_assoc]
      rw [parseLit, if_neg (by decide), if_pos (by decide), skipBlank_repr, if_neg (head_repr _ _ _ _ (.inl rfl))]
      simp only [List.nil_append]
      rw [h1]
      simp only
      rw [skipBlank_cons (by decide), if_neg (by simp [chr]), if_pos List.head?_cons]
      simp only [List.drop_succ_cons, List.drop_zero]
      rw [skipBlank, show isBlank (chr 32) = true by decide, if_pos (rfl : true = true)]
      have h3 : skipBlank (reprLits printable (y :: l) ++ chr 41 :: rest) = reprLits printable (y :: l) ++ chr 41 :: rest := by
        rw [reprLits, List.append_assoc, skipBlank_repr]
      rw [h3, h2]
      rfl
    · intro z h
      cases h
    · intro z h
      cases h
  | .list l =>
    rw [reprLit] at hf ⊢
    simp only [List.length_cons, List.length_append, List.length_nil] at hf
    have h2 := parseLits_repr printable l f 93 rest (by omega) (.inr rfl)
    rw [List.cons_append, List.append_assoc, List.singleton_append, parseLit, if_neg (by decide), if_neg (by decide), if_pos (by decide)]
    have h3 : skipBlank (reprLits printable l ++ chr 93 :: rest) = reprLits printable l ++ chr 93 :: rest := by
      cases l with
      | nil => rw [reprLits, List.nil_append, skipBlank_cons (by decide)]
      | cons y l => rw [reprLits, List.append_assoc, skipBlank_repr]
    rw [h3, h2]
    rfl
theorem parseLits_repr (printable : CodePoint → Bool) (l : List PyLit) (fuel close : Nat) (rest : PyStr)
    (hf : 2 * (reprLits printable l).length + 1 ≤ fuel) (hc : close = 41 ∨ close = 93) :
    parseLits fuel close (reprLits printable l ++ chr close :: rest) = some (l, rest) := by
  obtain ⟨f, rfl⟩ : ∃ f, fuel = f + 1 := ⟨fuel - 1, by omega⟩
  have hcc : chr close = chr 41 ∨ chr close = chr 93 := by rcases hc with rfl | rfl <;> simp
  match l with
  | [] => rw [reprLits, List.nil_append, parseLits, if_pos List.head?_cons]; rfl
  | [x] =>
    rw [reprLits] at hf ⊢
    simp only [List.isEmpty_nil, if_true, List.append_nil] at hf ⊢
    have h1 := parseLit_repr printable x f (chr close :: rest) (by omega) (closed_cons _ _ (.inr hcc))
    rw [parseLits, if_neg (head_repr _ _ _ _ hcc), h1]
    simp only
    rw [skipBlank_cons (by rcases hc with rfl | rfl <;> decide), if_pos List.head?_cons]
    rfl
  | x :: y :: l =>
    rw [reprLits] at hf ⊢
    simp only [List.isEmpty_cons, Bool.false_eq_true, if_false, List.length_cons, List.length_append] at hf
    have h1 := parseLit_repr printable x f (chr 44 :: chr 32 :: (reprLits printable (y :: l) ++ chr close :: rest)) (by omega) (closed_cons _ _ (.inl rfl))
    have h2 := parseLits_repr printable (y :: l) f close rest (by omega) hc
    simp only [List.isEmpty_cons, Bool.false_eq_true, if_false, List.cons_append, List.append_assoc]
    rw [parseLits, if_neg (head_repr _ _ _ _ hcc), h1]
    simp only
    rw [skipBlank_cons (by decide), if_neg (by rcases hc with rfl | rfl <;> simp [chr]), if_pos List.head?_cons]
    simp only [List.drop_succ_cons, List.drop_zero]
    rw [skipBlank, show isBlank (chr 32) = true by decide, if_pos (rfl : true = true)]
    have h3 : skipBlank (reprLits printable (y :: l) ++ chr close :: rest) = reprLits printable (y :: l) ++ chr close :: rest := by
      rw [reprLits, List.append_assoc, skipBlank_repr]
    rw [h3, h2]
    rfl
end

/-- `ast.literal_eval` inverts `repr` on strings, integers, tuples and lists, nested in any way, whatever characters count as
printable. -/
theorem literalEval_repr (printable : CodePoint → Bool) (x : PyLit) : literalEval (reprLit printable x) = some x := by
  have h := parseLit_repr printable x (2 * (reprLit printable x).length + 2) [] (by omega) (.inl rfl)
  rw [List.append_nil] at h
  obtain ⟨c, r, hc, hb, -⟩ := reprLit_head printable x
  have hd : (reprLit printable x).dropWhile (fun c => c.val = 32 || c.val = 9) = reprLit printable x := by
    rw [hc, List.dropWhile_cons, if_neg]
    intro h
    simp [isBlank] at hb h
    omega
  unfold literalEval
  rw [hd, h]
  rfl

-- [('a', '<i4'), ("it's\n", '|u1', (2,)), ('\x80', -5)]
example : reprLit (fun _ => false) (.list [.tuple [.str (pyStr "a"), .str (pyStr "<i4")],
      .tuple [.str (pyStr "it's\n"), .str (pyStr "|u1"), .tuple [.int 2]], .tuple [.str [chr 128], .int (-5)]]) =
    pyStr "[('a', '<i4'), (\"it's\\n\", '|u1', (2,)), ('\\x80', -5)]" := by
  decide +kernel

end Bloscpack
