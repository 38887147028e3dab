import Verif.Model.Json
import Verif.Spec.Json
import Verif.Lemmas.JsonNumber
/-
C42: metadata survives being written as JSON.
-/
namespace Bloscpack

/-! ### strings -/

theorem hexValue_hexDigit : ∀ n : Fin 16, hexValue (hexDigit n.val) = some n.val := by decide

theorem parseHex4_unit (n : Nat) (hn : n < 65536) (t : List Char) :
    parseHex4 ((escapeUnit n).drop 2 ++ t) = some (n, t) := by
  have h := fun k : Nat => hexValue_hexDigit ⟨k % 16, Nat.mod_lt _ (by omega)⟩
  simp only at h
  show parseHex4 (hexDigit (n / 4096 % 16) :: hexDigit (n / 256 % 16) :: hexDigit (n / 16 % 16) :: hexDigit (n % 16) :: t) = _
  unfold parseHex4
  simp only [h]
  have : 4096 * (n / 4096 % 16) + 256 * (n / 256 % 16) + 16 * (n / 16 % 16) + n % 16 = n := by omega
  rw [this]

theorem chr_val (c : CodePoint) : chr c.val = c := by
  apply Fin.ext
  show c.val % 1114112 = c.val
  exact Nat.mod_eq_of_lt c.isLt

/-- scanning a unit that is no high surrogate -/
theorem parseUnicodeEscape_unit (n : Nat) (hn : n < 65536) (hh : isHigh n = false) (t : List Char) :
    parseUnicodeEscape ((escapeUnit n).drop 2 ++ t) = some (chr n, t) := by
  unfold parseUnicodeEscape
  rw [parseHex4_unit n hn]
  simp [hh]

theorem parseUnicodeEscape_high (n : Nat) (hn : n < 65536) (hh : isHigh n = true) (t : List Char) (ht : parseLow t = none) :
    parseUnicodeEscape ((escapeUnit n).drop 2 ++ t) = some (chr n, t) := by
  unfold parseUnicodeEscape
  rw [parseHex4_unit n hn]
  simp [hh, ht]

theorem parseLow_unit (l : Nat) (hl : l < 65536) (t : List Char) :
    parseLow (escapeUnit l ++ t) = if isLow l then some (l, t) else none := by
  show parseLow ('\\' :: 'u' :: ((escapeUnit l).drop 2 ++ t)) = _
  simp only [parseLow, parseHex4_unit l hl]

theorem parseUnicodeEscape_pair (h l : Nat) (hh : isHigh h = true) (hl : isLow l = true) (t : List Char) :
    parseUnicodeEscape ((escapeUnit h).drop 2 ++ (escapeUnit l ++ t)) = some (chr (joinSurrogates h l), t) := by
  have h1 : h < 65536 := by simp only [isHigh, Bool.and_eq_true, decide_eq_true_eq] at hh; omega
  have h2 : l < 65536 := by simp only [isLow, Bool.and_eq_true, decide_eq_true_eq] at hl; omega
  unfold parseUnicodeEscape
  rw [parseHex4_unit h h1]
  simp [hh, parseLow_unit l h2, hl]

theorem scanString_cons (f : Nat) (c : Char) (r : List Char) :
    scanString (f + 1) (c :: r) =
      if c = '"' then some ([], r)
      else if c = '\\' then
        match parseEscape r with
        | none => none
        | some (x, r') => (scanString f r').map (fun y => (x :: y.1, y.2))
      else if c.toNat < 32 then none
      else (scanString f r).map (fun y => (chr c.toNat :: y.1, y.2)) := by
  rw [scanString]; rfl

/-- one step of the scanner over an escape -/
theorem scanString_escape (f : Nat) (r : List Char) (x : CodePoint) (t : List Char) (h : parseEscape r = some (x, t)) :
    scanString (f + 1) ('\\' :: r) = (scanString f t).map (fun y => (x :: y.1, y.2)) := by
  rw [scanString_cons, if_neg (by decide), if_pos rfl, h]

theorem scanString_unit (f n : Nat) (x : CodePoint) (t t' : List Char)
    (h : parseUnicodeEscape ((escapeUnit n).drop 2 ++ t) = some (x, t')) :
    scanString (f + 1) (escapeUnit n ++ t) = (scanString f t').map (fun y => (x :: y.1, y.2)) := by
  apply scanString_escape (r := 'u' :: ((escapeUnit n).drop 2 ++ t))
  unfold parseEscape
  simpa using h

/-- the text of a string, up to and with the closing quote -/
def strTail (s : PyStr) (rest : List Char) : List Char := s.flatMap escapeChar ++ '"' :: rest

theorem strTail_cons (c : CodePoint) (s : PyStr) (rest : List Char) : strTail (c :: s) rest = escapeChar c ++ strTail s rest := by
  simp [strTail]

/-- the printable characters: their own text -/
theorem escapeChar_printable (c : CodePoint) (h1 : 32 ≤ c.val) (h2 : c.val ≤ 126) (h3 : c.val ≠ 34) (h4 : c.val ≠ 92) :
    escapeChar c = [Char.ofNat c.val] ∧ (Char.ofNat c.val).toNat = c.val := by
  constructor
  · unfold escapeChar
    simp only [if_neg h3, if_neg h4, if_neg (show c.val ≠ 10 by omega), if_neg (show c.val ≠ 13 by omega), if_neg (show c.val ≠ 9 by omega),
      if_neg (show c.val ≠ 12 by omega), if_neg (show c.val ≠ 8 by omega), if_pos (And.intro h1 h2)]
  · exact (by decide : ∀ n : Fin 127, (Char.ofNat n.val).toNat = n.val) ⟨c.val, by omega⟩

/-- the short escapes -/
def shortEscape (n : Nat) : Option Char :=
  if n = 34 then some '"' else if n = 92 then some '\\' else if n = 10 then some 'n' else if n = 13 then some 'r'
  else if n = 9 then some 't' else if n = 12 then some 'f' else if n = 8 then some 'b' else none

/-- every character falls in one of four classes -/
theorem escapeChar_cases (c : CodePoint) :
    (∃ x, shortEscape c.val = some x ∧ escapeChar c = ['\\', x]) ∨
    (32 ≤ c.val ∧ c.val ≤ 126 ∧ c.val ≠ 34 ∧ c.val ≠ 92) ∨
    (c.val < 65536 ∧ escapeChar c = escapeUnit c.val) ∨
    (65536 ≤ c.val ∧ escapeChar c = escapeUnit (55296 + (c.val - 65536) / 1024) ++ escapeUnit (56320 + (c.val - 65536) % 1024)) := by
  unfold escapeChar shortEscape
  by_cases h1 : c.val = 34
  · simp [h1]
  by_cases h2 : c.val = 92
  · simp [h2]
  by_cases h3 : c.val = 10
  · simp [h3]
  by_cases h4 : c.val = 13
  · simp [h4]
  by_cases h5 : c.val = 9
  · simp [h5]
  by_cases h6 : c.val = 12
  · simp [h6]
  by_cases h7 : c.val = 8
  · simp [h7]
  by_cases h8 : 32 ≤ c.val ∧ c.val ≤ 126
  · exact .inr (.inl ⟨h8.1, h8.2, h1, h2⟩)
  simp only [if_neg h1, if_neg h2, if_neg h3, if_neg h4, if_neg h5, if_neg h6, if_neg h7, if_neg h8]
  by_cases h9 : c.val < 65536
  · simp [h9]
  · simp only [if_neg h9]
    exact .inr (.inr (.inr ⟨by omega, trivial⟩))

theorem parseEscape_short (n : Nat) (x : Char) (h : shortEscape n = some x) (t : List Char) : parseEscape (x :: t) = some (chr n, t) := by
  unfold shortEscape at h
  repeat' split at h
  all_goals first | (cases h; done) | (cases h; subst n; rfl) | (simp only [Option.some.injEq] at h; subst h; subst n; rfl) | skip
  all_goals simp_all

theorem shortEscape_ne_u (n : Nat) (x : Char) (h : shortEscape n = some x) : x ≠ 'u' := by
  unfold shortEscape at h
  intro hx
  subst hx
  repeat' split at h
  all_goals simp at h

theorem isHigh_iff (n : Nat) : isHigh n = true ↔ 55296 ≤ n ∧ n ≤ 56319 := by simp [isHigh]
theorem isLow_iff (n : Nat) : isLow n = true ↔ 56320 ≤ n ∧ n ≤ 57343 := by simp [isLow]
theorem isHigh_false (n : Nat) (h : ¬ (55296 ≤ n ∧ n ≤ 56319)) : isHigh n = false := by
  rw [← Bool.not_eq_true, isHigh_iff]; exact h

theorem parseLow_ne_u (x : Char) (hx : x ≠ 'u') (t : List Char) : parseLow ('\\' :: x :: t) = none := by
  unfold parseLow
  split
  · rename_i h; simp only [List.cons.injEq] at h; exact absurd h.2.1 hx
  · rfl

theorem parseLow_ne_bs (x : Char) (hx : x ≠ '\\') (t : List Char) : parseLow (x :: t) = none := by
  unfold parseLow
  split
  · rename_i h; simp only [List.cons.injEq] at h; exact absurd h.1 hx
  · rfl

/-- what `parseLow` finds in front of the text of a string -/
theorem parseLow_strTail_cons (c : CodePoint) (s : PyStr) (rest : List Char) :
    parseLow (strTail (c :: s) rest) = if isLow c.val then some (c.val, strTail s rest) else none := by
  rw [strTail_cons]
  rcases escapeChar_cases c with ⟨x, hx, he⟩ | ⟨h1, h2, h3, h4⟩ | ⟨hc, he⟩ | ⟨hc, he⟩
  · rw [he]
    have : ¬ isLow c.val = true := by
      rw [isLow_iff]
      unfold shortEscape at hx
      repeat' split at hx
      all_goals first | (cases hx; done) | omega
    rw [if_neg this]
    exact parseLow_ne_u x (shortEscape_ne_u _ _ hx) _
  · rw [(escapeChar_printable c h1 h2 h3 h4).1]
    have : ¬ isLow c.val = true := by rw [isLow_iff]; omega
    rw [if_neg this]
    apply parseLow_ne_bs
    intro hb
    have := (escapeChar_printable c h1 h2 h3 h4).2
    rw [hb] at this
    exact h4 this.symm
  · rw [he, parseLow_unit _ hc]
  · rw [he, List.append_assoc, parseLow_unit _ (by have := c.isLt; omega)]
    have hn : ¬ isLow (55296 + (c.val - 65536) / 1024) = true := by rw [isLow_iff]; have := c.isLt; omega
    have hn' : ¬ isLow c.val = true := by rw [isLow_iff]; omega
    rw [if_neg hn, if_neg hn']

theorem parseLow_strTail_nil (rest : List Char) : parseLow (strTail [] rest) = none := parseLow_ne_bs '"' (by decide) rest

/-- reading back one character that does not merge with what follows -/
theorem scanString_char (f : Nat) (c : CodePoint) (t : List Char) (ht : isHigh c.val = true → parseLow t = none) :
    scanString (f + 1) (escapeChar c ++ t) = (scanString f t).map (fun y => (c :: y.1, y.2)) := by
  rcases escapeChar_cases c with ⟨x, hx, he⟩ | ⟨h1, h2, h3, h4⟩ | ⟨hc, he⟩ | ⟨hc, he⟩
  · rw [he]
    have := scanString_escape f (x :: t) (chr c.val) t (parseEscape_short _ _ hx t)
    rw [chr_val] at this
    exact this
  · obtain ⟨he, hv⟩ := escapeChar_printable c h1 h2 h3 h4
    rw [he]
    show scanString (f + 1) (Char.ofNat c.val :: t) = _
    rw [scanString_cons]
    have e1 : Char.ofNat c.val ≠ '"' := fun h => by rw [h] at hv; exact h3 hv.symm
    have e2 : Char.ofNat c.val ≠ '\\' := fun h => by rw [h] at hv; exact h4 hv.symm
    rw [if_neg e1, if_neg e2, hv, if_neg (by omega), chr_val]
  · rw [he]
    have : parseUnicodeEscape ((escapeUnit c.val).drop 2 ++ t) = some (chr c.val, t) := by
      cases hh : isHigh c.val with
      | true => exact parseUnicodeEscape_high _ hc hh t (ht hh)
      | false => exact parseUnicodeEscape_unit _ hc hh t
    rw [scanString_unit f _ _ _ _ this, chr_val]
  · rw [he, List.append_assoc]
    have hlt := c.isLt
    have := parseUnicodeEscape_pair (55296 + (c.val - 65536) / 1024) (56320 + (c.val - 65536) % 1024)
      ((isHigh_iff _).2 (by omega)) ((isLow_iff _).2 (by omega)) t
    rw [scanString_unit f _ _ _ _ this]
    have e : joinSurrogates (55296 + (c.val - 65536) / 1024) (56320 + (c.val - 65536) % 1024) = c.val := by
      unfold joinSurrogates; omega
    rw [e, chr_val]

/-- reading back a pair of surrogates -/
theorem scanString_pair (f : Nat) (h l : CodePoint) (t : List Char) (hp : Spec.SurrogatePair h l) :
    scanString (f + 1) (escapeChar h ++ (escapeChar l ++ t)) =
      (scanString f t).map (fun y => (chr (joinSurrogates h.val l.val) :: y.1, y.2)) := by
  obtain ⟨h1, h2, h3, h4⟩ := hp
  have e : ∀ c : CodePoint, 0xD800 ≤ c.val → c.val ≤ 0xDFFF → escapeChar c = escapeUnit c.val := by
    intro c hc1 hc2
    rcases escapeChar_cases c with ⟨x, hx, he⟩ | hh | ⟨hc, he⟩ | ⟨hc, he⟩
    · exfalso
      unfold shortEscape at hx
      repeat' split at hx
      all_goals first | (cases hx; done) | omega
    · omega
    · exact he
    · omega
  rw [e h h1 (by omega), e l (by omega) h4]
  exact scanString_unit f _ _ _ _ (parseUnicodeEscape_pair _ _ ((isHigh_iff _).2 (by omega)) ((isLow_iff _).2 (by omega)) t)

theorem scanString_strTail (rest : List Char) : ∀ (n : Nat) (s : PyStr) (f : Nat), s.length = n → s.length + 1 ≤ f →
    scanString f (strTail s rest) = some (Spec.joinPairs s, rest) := by
  intro n
  induction n using Nat.strongRecOn with
  | _ n ih =>
    intro s f hn hf
    obtain ⟨f, rfl⟩ : ∃ g, f = g + 1 := ⟨f - 1, by omega⟩
    match s, hn, hf with
    | [], _, _ => simp [strTail, scanString, Spec.joinPairs]
    | [c], hn, hf =>
      rw [strTail_cons, scanString_char _ _ _ (fun _ => parseLow_strTail_nil rest),
        ih 0 (by simp at hn; omega) [] f rfl (by simp at hf ⊢; omega)]
      rfl
    | h :: l :: r, hn, hf =>
      simp only [List.length_cons] at hn hf
      unfold Spec.joinPairs
      by_cases hp : Spec.SurrogatePair h l
      · rw [if_pos hp, strTail_cons, strTail_cons, scanString_pair _ _ _ _ hp, ih r.length (by omega) r f rfl (by omega)]
        rfl
      · rw [if_neg hp, strTail_cons, scanString_char, ih (l :: r).length (by simp; omega) (l :: r) f rfl (by simp; omega)]
        · rfl
        · intro hh
          rw [parseLow_strTail_cons, if_neg]
          intro hl
          rw [isHigh_iff] at hh
          rw [isLow_iff] at hl
          exact hp ⟨hh.1, hh.2, hl.1, hl.2⟩

theorem escapeChar_length (c : CodePoint) : 1 ≤ (escapeChar c).length := by
  unfold escapeChar escapeUnit
  repeat' split
  all_goals simp

theorem length_strTail (s : PyStr) (rest : List Char) : s.length + 1 ≤ (strTail s rest).length := by
  induction s with
  | nil => simp [strTail]
  | cons c s ih =>
    rw [strTail_cons, List.length_append, List.length_cons]
    have := escapeChar_length c
    omega

/-! ### integers -/

theorem toDigits_head (n : Nat) (hn : 0 < n) : ∃ c r, Nat.toDigits 10 n = c :: r ∧ c ≠ '0' := by
  induction n using Nat.strongRecOn with
  | _ n ih =>
    by_cases h : n < 10
    · refine ⟨Nat.digitChar n, [], Nat.toDigits_of_lt_base h, ?_⟩
      exact (by decide : ∀ k : Fin 10, 0 < k.val → Nat.digitChar k.val ≠ '0') ⟨n, h⟩ hn
    · obtain ⟨c, r, h1, h2⟩ := ih (n / 10) (by omega) (by omega)
      refine ⟨c, r ++ [Nat.digitChar (n % 10)], ?_, h2⟩
      rw [Nat.toDigits_of_base_le (by omega) (by omega), h1]
      rfl

theorem parseNat_toDigits (n : Nat) (rest : List Char) (hr : Stops rest) : parseNat (Nat.toDigits 10 n ++ rest) = some (n, rest) := by
  by_cases hn : n = 0
  · subst hn
    rfl
  obtain ⟨c, r, h1, h2⟩ := toDigits_head n (by omega)
  have hd : ∀ x ∈ Nat.toDigits 10 n, x.isDigit = true := fun x hx => Nat.isDigit_of_mem_toDigits (by omega) (by omega) hx
  have ht := takeDigits_all (Nat.toDigits 10 n) rest hd (fun x hx => (hr x hx).1) 0 0
  have hv : (Nat.toDigits 10 n).foldl (fun v c => 10 * v + (c.toNat - 48)) 0 = n := by
    have := Nat.ofDigitChars_toDigits (b := 10) (n := n) (by omega) (by omega)
    rw [Nat.ofDigitChars_eq_foldl] at this
    exact this
  rw [hv, h1] at ht
  rw [h1] at hd ⊢
  rw [List.cons_append] at ht ⊢
  simp only [parseNat, if_neg h2, if_pos (hd c List.mem_cons_self), ht]

theorem jsonNat_toDigits (n : Nat) : Spec.JsonNat (Nat.toDigits 10 n) n := by
  have h := parseNat_toDigits n [] nofun
  rw [List.append_nil] at h
  obtain ⟨t, h1, h2⟩ := parseNat_sound h
  rw [List.append_nil] at h1
  rw [h1]
  exact h2

theorem parseNumber_dumpsInt (i : Int) (rest : List Char) (hr : Stops rest) : parseNumber (dumpsInt i ++ rest) = some (.int i, rest) := by
  unfold dumpsInt
  have h := fun neg => scanNumber_int (jsonNat_toDigits i.natAbs) neg hr
  by_cases hi : i < 0
  · rw [if_pos hi, List.cons_append]
    have h := h true
    rw [if_pos rfl, List.singleton_append] at h
    unfold parseNumber
    rw [h]
    simp only [Spec.signed, if_true]
    have : -(i.natAbs : Int) = i := by omega
    rw [this]
  · rw [if_neg hi]
    have h := h false
    rw [if_neg (by decide), List.nil_append] at h
    unfold parseNumber
    rw [h]
    simp only [Spec.signed, Bool.false_eq_true, if_false]
    have : (i.natAbs : Int) = i := by omega
    rw [this]

theorem dumpsInt_head (i : Int) : ∃ c r, dumpsInt i = c :: r ∧ (c = '-' ∨ c.isDigit = true) := by
  unfold dumpsInt
  split
  · exact ⟨_, _, rfl, .inl rfl⟩
  · cases hd : Nat.toDigits 10 i.natAbs with
    | nil => exact absurd hd Nat.toDigits_ne_nil
    | cons c r =>
      exact ⟨c, r, rfl, .inr (Nat.isDigit_of_mem_toDigits (b := 10) (n := i.natAbs) (by omega) (by omega) (by rw [hd]; exact List.mem_cons_self))⟩

/-! ### floats -/

theorem jsonFloat_reprMagnitude (m : Magnitude) : Spec.JsonFloat (reprMagnitude m) (.num false m) := by
  unfold reprMagnitude
  cases hf : ((List.range 17).flatMap (fun p => reprCandidates m.val (p + 1))).find? (fun t => scanNumber t = some (.inr (.num false m), [])) with
  | some t =>
    have h := List.find?_some hf
    obtain ⟨t', h1, h2⟩ := scanNumber_sound (of_decide_eq_true h)
    rw [List.append_nil] at h1
    subst h1
    rcases h2 with ⟨_, _, _, _, _, h3⟩ | ⟨d, h3, h4⟩
    · cases h3
    · cases h4
      exact h3
  | none =>
    refine ⟨false, Nat.toDigits 10 (scaled m.val * 5 ^ 1074), _, none, ['e', '-', '1', '0', '7', '4'], -1074, rfl, jsonNat_toDigits _, by simp,
      .inr ⟨'e', true, ['-'], ['1', '0', '7', '4'], .inl rfl, by simp [Spec.signTexts], ⟨by simp, by decide⟩, rfl, by decide⟩, .inr (by simp), ?_⟩
    refine ⟨m, rfl, ?_⟩
    have hv : Spec.decimal (Nat.toDigits 10 (scaled m.val * 5 ^ 1074) ++ (none : Option (List Char)).getD []) = scaled m.val * 5 ^ 1074 := by
      obtain ⟨_, _, _, _, h, _⟩ := (jsonNat_toDigits (scaled m.val * 5 ^ 1074)).facts
      rw [Option.getD_none, List.append_nil]
      exact h
    rw [hv]
    have h := nearest_exact m.val (Nat.le_of_lt_succ m.isLt)
    have e1 : (-1074 - ((([] : List Char).length : Nat) : Int)).toNat = 0 := rfl
    have e2 : (-(-1074 - ((([] : List Char).length : Nat) : Int))).toNat = 1074 := rfl
    rw [Option.getD_none, e1, e2, Nat.pow_zero, Nat.mul_one]
    exact h

theorem jsonFloat_zero : Spec.JsonFloat ['0', '.', '0'] (.num false 0) := by
  have h : scanNumber ['0', '.', '0'] = some (.inr (.num false 0), []) := by decide +kernel
  obtain ⟨t', h1, h2⟩ := scanNumber_sound h
  rw [List.append_nil] at h1
  subst h1
  rcases h2 with ⟨_, _, _, _, _, h3⟩ | ⟨d, h3, h4⟩
  · cases h3
  · cases h4
    exact h3

theorem jsonFloat_minus {t : List Char} {m : Magnitude} (h : Spec.JsonFloat t (.num false m)) : Spec.JsonFloat ('-' :: t) (.num true m) := by
  obtain ⟨neg, ip, n, fp, ex, x, rfl, h1, h2, h3, h4, b, h5, h6⟩ := h
  cases h5
  exact ⟨true, ip, n, fp, ex, x, rfl, h1, h2, h3, h4, m, rfl, h6⟩

theorem jsonFloat_dumps (neg : Bool) (m : Magnitude) (hm : m.val ≠ 2047 * 2 ^ 52) : Spec.JsonFloat (dumpsDouble (.num neg m)) (.num neg m) := by
  have h : Spec.JsonFloat (if m.val = 0 then ['0', '.', '0'] else reprMagnitude m) (.num false m) := by
    split
    · rename_i h0
      have : m = 0 := Fin.ext h0
      rw [this]
      exact jsonFloat_zero
    · exact jsonFloat_reprMagnitude m
  rw [dumpsDouble, if_neg hm]
  cases neg with
  | false => exact h
  | true => exact jsonFloat_minus h

theorem jsonFloat_head {t : List Char} {d : Double} (h : Spec.JsonFloat t d) : ∃ c r, t = c :: r ∧ (c = '-' ∨ c.isDigit = true) := by
  obtain ⟨neg, ip, n, fp, ex, x, rfl, h1, -⟩ := h
  cases neg with
  | true => exact ⟨_, _, rfl, .inl rfl⟩
  | false =>
    obtain ⟨c, u, rfl, h2, -⟩ := h1.facts
    exact ⟨c, _, rfl, .inr (h2 c (by simp))⟩

theorem infinity_eq {m : Magnitude} (h : m.val = 2047 * 2 ^ 52) : m = infinity :=
  Fin.ext (by rw [h]; exact (Nat.mod_eq_of_lt (by decide)).symm)

theorem parseNumber_float {t : List Char} {d : Double} (h : Spec.JsonFloat t d) {r : List Char} (hr : Stops r) :
    parseNumber (t ++ r) = some (.float d, r) := by
  unfold parseNumber
  rw [scanNumber_float h hr]

/-! ### values -/

/-- characters values start with -/
def StartsValue (c : Char) : Prop := c ∈ ['"', '[', '{', 'n', 't', 'f', 'N', 'I', '-'] ∨ c.isDigit = true

theorem dumpsJson_head (j : Json) : ∃ c r, dumpsJson j = c :: r ∧ StartsValue c := by
  cases j with
  | null => exact ⟨_, _, by rw [dumpsJson], by simp [StartsValue]⟩
  | bool b => cases b <;> exact ⟨_, _, by rw [dumpsJson], by simp [StartsValue]⟩
  | int i =>
    obtain ⟨c, r, h1, h2⟩ := dumpsInt_head i
    exact ⟨c, r, by rw [dumpsJson, h1], by rcases h2 with h | h <;> simp [StartsValue, h]⟩
  | float d =>
    rw [dumpsJson]
    cases d with
    | nan => exact ⟨_, _, rfl, by simp [StartsValue]⟩
    | num neg m =>
      by_cases hm : m.val = 2047 * 2 ^ 52
      · rw [dumpsDouble, if_pos hm]
        cases neg <;> exact ⟨_, _, rfl, by simp [StartsValue]⟩
      · obtain ⟨c, r, h1, h2⟩ := jsonFloat_head (jsonFloat_dumps neg m hm)
        exact ⟨c, r, h1, by rcases h2 with h | h <;> simp [StartsValue, h]⟩
  | str s => exact ⟨_, _, by rw [dumpsJson, dumpsStr], by simp [StartsValue]⟩
  | arr l => exact ⟨_, _, by rw [dumpsJson], by simp [StartsValue]⟩
  | obj l => exact ⟨_, _, by rw [dumpsJson], by simp [StartsValue]⟩

theorem StartsValue.ne {c : Char} (h : StartsValue c) (d : Char)
    (hd : d ∉ ['"', '[', '{', 'n', 't', 'f', 'N', 'I', '-'] ∧ d.isDigit = false) : c ≠ d := by
  rintro rfl
  rcases h with h | h
  · exact hd.1 h
  · rw [hd.2] at h; cases h

theorem skipWs_start {c : Char} (h : StartsValue c) (r : List Char) : skipWs (c :: r) = c :: r := by
  unfold skipWs
  rw [if_neg]
  rintro (h1 | h1 | h1 | h1)
  · exact h.ne ' ' (by decide) h1
  · exact h.ne '\t' (by decide) h1
  · exact h.ne '\n' (by decide) h1
  · exact h.ne '\r' (by decide) h1

theorem skipWs_dumps (j : Json) (rest : List Char) : skipWs (dumpsJson j ++ rest) = dumpsJson j ++ rest := by
  obtain ⟨c, r, h1, h2⟩ := dumpsJson_head j
  rw [h1]
  exact skipWs_start h2 _

theorem skipWs_punct {c : Char} (h : c = ',' ∨ c = ']' ∨ c = '}' ∨ c = ':' ∨ c = '"') (r : List Char) : skipWs (c :: r) = c :: r := by
  unfold skipWs
  rw [if_neg]
  rcases h with rfl | rfl | rfl | rfl | rfl <;> decide

theorem stops_punct {c : Char} (h : c = ',' ∨ c = ']' ∨ c = '}') (r : List Char) : Stops (c :: r) := by
  intro x hx
  simp only [List.head?_cons, Option.mem_some_iff] at hx
  subst hx
  rcases h with rfl | rfl | rfl <;> decide

theorem stops_nil : Stops [] := nofun

theorem parseValue_number (f : Nat) (c : Char) (r : List Char) (h : c = '-' ∨ c.isDigit = true) (hi : c = '-' → r.head? ≠ some 'I') :
    parseValue (f + 1) (c :: r) = parseNumber (c :: r) := by
  have hne : ∀ d : Char, d ≠ '-' → d.isDigit = false → c ≠ d := by
    rintro d h1 h2 rfl
    rcases h with h | h
    · exact h1 h
    · rw [h2] at h; cases h
  have hinf : ¬ (c = '-' ∧ r.take 8 = 'I' :: infinityTail) := by
    rintro ⟨h1, h2⟩
    apply hi h1
    cases r with
    | nil => cases h2
    | cons x r =>
      rw [List.take_succ_cons] at h2
      injection h2 with h2 _
      rw [h2, List.head?_cons]
  rw [parseValue]
  simp only [if_neg (hne '"' (by decide) (by decide)), if_neg (hne '[' (by decide) (by decide)), if_neg (hne '{' (by decide) (by decide)),
    if_neg (hne 'n' (by decide) (by decide)), if_neg (hne 't' (by decide) (by decide)), if_neg (hne 'f' (by decide) (by decide)),
    if_neg (hne 'N' (by decide) (by decide)), if_neg (hne 'I' (by decide) (by decide)), if_neg hinf]

/-- the digits of a number do not begin with a letter -/
theorem digits_head_ne {t : List Char} {v : Nat} (h : Spec.JsonNat t v) (r : List Char) : (t ++ r).head? ≠ some 'I' := by
  obtain ⟨c, u, rfl, h2, -⟩ := h.facts
  intro h
  cases h
  exact absurd (h2 'I' (by simp)) (by decide)

theorem parseValue_float {t : List Char} {d : Double} (h : Spec.JsonFloat t d) (f : Nat) {r : List Char} (hr : Stops r) :
    parseValue (f + 1) (t ++ r) = some (.float d, r) := by
  have hp := parseNumber_float h hr
  obtain ⟨c, u, h1, h2⟩ := jsonFloat_head h
  rw [h1, List.cons_append] at hp ⊢
  rw [parseValue_number f c (u ++ r) h2 ?_, hp]
  rintro rfl
  obtain ⟨neg, ip, n, fp, ex, x, h3, h4, -⟩ := h
  rw [h1] at h3
  cases neg with
  | true =>
    injection h3 with _ h3
    rw [h3]
    have := digits_head_ne h4 (Spec.fractionText fp ++ ex ++ r)
    rw [← List.append_assoc] at this
    exact this
  | false =>
    obtain ⟨c, v, rfl, h5, -⟩ := h4.facts
    injection h3 with h3 _
    exact absurd (h5 c (by simp)) (by rw [← h3]; decide)

theorem parseValue_double (d : Double) (f : Nat) {r : List Char} (hr : Stops r) : parseValue (f + 1) (dumpsDouble d ++ r) = some (.float d, r) := by
  cases d with
  | nan => rw [dumpsDouble, List.cons_append, parseValue]; rfl
  | num neg m =>
    by_cases hm : m.val = 2047 * 2 ^ 52
    · rw [dumpsDouble, if_pos hm, infinity_eq hm]
      cases neg
      · show parseValue (f + 1) ('I' :: (infinityTail ++ r)) = _
        rw [parseValue]; rfl
      · show parseValue (f + 1) ('-' :: ('I' :: infinityTail ++ r)) = _
        rw [parseValue]; rfl
    · exact parseValue_float (jsonFloat_dumps neg m hm) f hr

theorem parseValue_int (i : Int) (f : Nat) {r : List Char} (hr : Stops r) : parseValue (f + 1) (dumpsInt i ++ r) = some (.int i, r) := by
  have := parseNumber_dumpsInt i r hr
  obtain ⟨c, u, h1, h2⟩ := dumpsInt_head i
  rw [h1, List.cons_append] at this ⊢
  rw [parseValue_number _ _ _ h2 ?_, this]
  rintro rfl
  unfold dumpsInt at h1
  split at h1
  · injection h1 with _ h1
    rw [← h1]
    exact digits_head_ne (jsonNat_toDigits _) _
  · obtain ⟨c, v, h3, h5, -⟩ := (jsonNat_toDigits i.natAbs).facts
    rw [h1] at h3 h5
    exact absurd (h5 '-' (by simp)) (by decide)

theorem parseValue_str (f : Nat) (r : List Char) :
    parseValue (f + 1) ('"' :: r) = (scanString (r.length + 1) r).map (fun y => (.str y.1, y.2)) := by
  rw [parseValue]; rfl

theorem parseValue_arr (f : Nat) (r : List Char) :
    parseValue (f + 1) ('[' :: r) = if (skipWs r).head? = some ']' then some (.arr [], (skipWs r).drop 1)
      else (parseElems f (skipWs r)).map (fun y => (.arr y.1, y.2)) := by
  rw [parseValue]; rfl

theorem parseValue_obj (f : Nat) (r : List Char) :
    parseValue (f + 1) ('{' :: r) = if (skipWs r).head? = some '}' then some (.obj [], (skipWs r).drop 1)
      else (parseItems f (skipWs r)).map (fun y => (.obj (dictOfPairs y.1), y.2)) := by
  rw [parseValue]; rfl

theorem parseElems_succ (f : Nat) (s : List Char) (v : Json) (r : List Char) (h : parseValue f s = some (v, r)) :
    parseElems (f + 1) s =
      if (skipWs r).head? = some ']' then some ([v], (skipWs r).drop 1)
      else if (skipWs r).head? = some ',' then
        (parseElems f (skipWs ((skipWs r).drop 1))).map (fun y => (v :: y.1, y.2))
      else none := by
  rw [parseElems, h]

theorem parseItems_succ (f : Nat) (s : List Char) (k : PyStr) (v : Json) (r1 r : List Char)
    (hk : scanString ('"' :: s).length.succ s = some (k, ':' :: r1)) (hv : parseValue f (skipWs r1) = some (v, r)) :
    parseItems (f + 1) ('"' :: s) =
      if (skipWs r).head? = some '}' then some ([(k, v)], (skipWs r).drop 1)
      else if (skipWs r).head? = some ',' then
        (parseItems f (skipWs ((skipWs r).drop 1))).map (fun y => ((k, v) :: y.1, y.2))
      else none := by
  rw [parseItems]
  have e : scanString (('"' :: s).length + 1) (List.drop 1 ('"' :: s)) = some (k, ':' :: r1) := hk
  rw [e]
  have e2 : skipWs (':' :: r1) = ':' :: r1 := skipWs_punct (by simp) _
  simp only [e2]
  simp [hv]

theorem scan_dumpsStr (s : PyStr) (rest : List Char) (f : Nat) (hf : (strTail s rest).length ≤ f) :
    scanString f (strTail s rest) = some (Spec.joinPairs s, rest) :=
  scanString_strTail rest s.length s f rfl (Nat.le_trans (length_strTail s rest) hf)

theorem dumpsStr_append (s : PyStr) (rest : List Char) : dumpsStr s ++ rest = '"' :: strTail s rest := by
  simp [dumpsStr, strTail]

mutual
theorem parse_dumps (j : Json) (f : Nat) (rest : List Char) (hr : Stops rest) (hf : 2 * (dumpsJson j).length ≤ f) :
    parseValue f (dumpsJson j ++ rest) = some (Spec.joined j, rest) := by
  obtain ⟨c, r, hd, hc⟩ := dumpsJson_head j
  obtain ⟨f, rfl⟩ : ∃ g, f = g + 1 := ⟨f - 1, by rw [hd, List.length_cons] at hf; omega⟩
  match j with
  | .null => rw [dumpsJson, Spec.joined, List.cons_append, parseValue]; rfl
  | .bool true => rw [dumpsJson, Spec.joined, List.cons_append, parseValue]; rfl
  | .bool false => rw [dumpsJson, Spec.joined, List.cons_append, parseValue]; rfl
  | .int i =>
    rw [dumpsJson, Spec.joined]
    exact parseValue_int i f hr
  | .float d =>
    rw [dumpsJson, Spec.joined]
    exact parseValue_double d f hr
  | .str s =>
    rw [dumpsJson, Spec.joined, dumpsStr_append, parseValue_str, scan_dumpsStr _ _ _ (by omega)]
    rfl
  | .arr [] =>
    rw [dumpsJson, dumpsElems, Spec.joined, Spec.joinedElems]
    show parseValue (f + 1) ('[' :: ']' :: rest) = _
    rw [parseValue_arr, skipWs_punct (by simp)]
    rfl
  | .arr (v :: vs) =>
    have hl : 2 * (dumpsElems (v :: vs)).length + 1 ≤ f := by
      rw [dumpsJson] at hf
      simp only [List.length_cons, List.length_append, List.length_nil] at hf
      omega
    have ih := parse_dumpsElems v vs f rest hl
    rw [dumpsJson, Spec.joined]
    have e : '[' :: (dumpsElems (v :: vs) ++ [']']) ++ rest = '[' :: (dumpsElems (v :: vs) ++ ']' :: rest) := by simp
    have e2 : skipWs (dumpsElems (v :: vs) ++ ']' :: rest) = dumpsElems (v :: vs) ++ ']' :: rest := by
      rw [dumpsElems, List.append_assoc, skipWs_dumps]
    have e3 : (dumpsElems (v :: vs) ++ ']' :: rest).head? ≠ some ']' := by
      rw [dumpsElems]
      obtain ⟨c, r, h1, h2⟩ := dumpsJson_head v
      rw [h1]
      simp only [List.cons_append, List.head?_cons, ne_eq, Option.some.injEq]
      exact h2.ne ']' (by decide)
    rw [e, parseValue_arr, e2, if_neg e3, ih]
    rfl
  | .obj [] =>
    rw [dumpsJson, dumpsItems, Spec.joined, Spec.joinedItems]
    show parseValue (f + 1) ('{' :: '}' :: rest) = _
    rw [parseValue_obj, skipWs_punct (by simp)]
    rfl
  | .obj (kv :: kvs) =>
    have hl : 2 * (dumpsItems (kv :: kvs)).length + 1 ≤ f := by
      rw [dumpsJson] at hf
      simp only [List.length_cons, List.length_append, List.length_nil] at hf
      omega
    have ih := parse_dumpsItems kv kvs f rest hl
    rw [dumpsJson, Spec.joined]
    have e : '{' :: (dumpsItems (kv :: kvs) ++ ['}']) ++ rest = '{' :: (dumpsItems (kv :: kvs) ++ '}' :: rest) := by simp
    obtain ⟨r, hr⟩ : ∃ r, dumpsItems (kv :: kvs) ++ '}' :: rest = '"' :: r := by
      rw [dumpsItems]
      obtain ⟨k, v⟩ := kv
      rw [dumpsItem, dumpsStr]
      exact ⟨_, rfl⟩
    rw [e, parseValue_obj]
    rw [hr] at ih ⊢
    rw [skipWs_punct (by simp), if_neg (by simp), ih]
    rfl
termination_by f
theorem parse_dumpsElems (v : Json) (vs : List Json) (f : Nat) (rest : List Char) (hf : 2 * (dumpsElems (v :: vs)).length + 1 ≤ f) :
    parseElems f (dumpsElems (v :: vs) ++ ']' :: rest) = some (Spec.joinedElems (v :: vs), rest) := by
  obtain ⟨f, rfl⟩ : ∃ g, f = g + 1 := ⟨f - 1, by omega⟩
  rw [dumpsElems, List.length_append] at hf
  match vs with
  | [] =>
    have ih := parse_dumps v f (']' :: rest) (stops_punct (by simp) _) (by omega)
    rw [dumpsElems, Spec.joinedElems, Spec.joinedElems]
    simp only [List.isEmpty_nil, if_true, List.append_nil]
    rw [parseElems_succ _ _ _ _ ih, skipWs_punct (by simp)]
    rfl
  | w :: ws =>
    simp only [List.isEmpty_cons, Bool.false_eq_true, if_false, List.length_cons] at hf
    have ih := parse_dumps v f (',' :: (dumpsElems (w :: ws) ++ ']' :: rest)) (stops_punct (by simp) _) (by omega)
    have ih2 := parse_dumpsElems w ws f rest (by omega)
    rw [dumpsElems, Spec.joinedElems]
    simp only [List.isEmpty_cons, Bool.false_eq_true, if_false, List.append_assoc, List.cons_append]
    have e2 : skipWs (dumpsElems (w :: ws) ++ ']' :: rest) = dumpsElems (w :: ws) ++ ']' :: rest := by
      rw [dumpsElems, List.append_assoc, skipWs_dumps]
    rw [parseElems_succ _ _ _ _ ih, skipWs_punct (by simp), if_neg (by simp), if_pos (by simp)]
    show Option.map _ (parseElems f (skipWs (dumpsElems (w :: ws) ++ ']' :: rest))) = _
    rw [e2, ih2]
    rfl
termination_by f
theorem parse_dumpsItems (kv : PyStr × Json) (kvs : List (PyStr × Json)) (f : Nat) (rest : List Char)
    (hf : 2 * (dumpsItems (kv :: kvs)).length + 1 ≤ f) :
    parseItems f (dumpsItems (kv :: kvs) ++ '}' :: rest) = some (Spec.joinedItems (kv :: kvs), rest) := by
  obtain ⟨f, rfl⟩ : ∃ g, f = g + 1 := ⟨f - 1, by omega⟩
  rw [dumpsItems, List.length_append] at hf
  match kv, kvs with
  | (k, v), [] =>
    rw [dumpsItem, List.length_append, List.length_cons] at hf
    have ih := parse_dumps v f ('}' :: rest) (stops_punct (by simp) _) (by omega)
    rw [dumpsItems, Spec.joinedItems, Spec.joinedItems, dumpsItem, Spec.joinedItem]
    simp only [List.isEmpty_nil, if_true, List.append_nil]
    rw [List.append_assoc, dumpsStr_append, List.cons_append]
    rw [parseItems_succ f _ (Spec.joinPairs k) (Spec.joined v) (dumpsJson v ++ '}' :: rest) ('}' :: rest)
      (scan_dumpsStr _ _ _ (by simp; omega)) (by rw [skipWs_dumps]; exact ih), skipWs_punct (by simp)]
    rfl
  | (k, v), w :: ws =>
    rw [dumpsItem, List.length_append, List.length_cons] at hf
    simp only [List.isEmpty_cons, Bool.false_eq_true, if_false, List.length_cons] at hf
    have ih := parse_dumps v f (',' :: (dumpsItems (w :: ws) ++ '}' :: rest)) (stops_punct (by simp) _) (by omega)
    have ih2 := parse_dumpsItems w ws f rest (by omega)
    rw [dumpsItems, Spec.joinedItems, dumpsItem, Spec.joinedItem]
    simp only [List.isEmpty_cons, Bool.false_eq_true, if_false]
    have e : dumpsStr k ++ ':' :: dumpsJson v ++ ',' :: dumpsItems (w :: ws) ++ '}' :: rest =
        '"' :: strTail k (':' :: (dumpsJson v ++ ',' :: (dumpsItems (w :: ws) ++ '}' :: rest))) := by
      rw [← dumpsStr_append]; simp
    obtain ⟨r, hr⟩ : ∃ r, dumpsItems (w :: ws) ++ '}' :: rest = '"' :: r := by
      obtain ⟨k', v'⟩ := w
      rw [dumpsItems, dumpsItem, dumpsStr]
      exact ⟨_, rfl⟩
    rw [e, parseItems_succ f _ (Spec.joinPairs k) (Spec.joined v) _ (',' :: (dumpsItems (w :: ws) ++ '}' :: rest))
      (scan_dumpsStr _ _ _ (by simp; omega)) (by rw [skipWs_dumps]; exact ih), skipWs_punct (by simp),
      if_neg (by simp), if_pos (by simp)]
    show Option.map _ (parseItems f (skipWs (dumpsItems (w :: ws) ++ '}' :: rest))) = _
    rw [hr] at ih2 ⊢
    rw [skipWs_punct (by simp), ih2]
    rfl
termination_by f
end

/-! ### the dump is ASCII -/

theorem hexDigit_ascii : ∀ n : Fin 16, (hexDigit n.val).toNat < 128 := by decide

theorem escapeUnit_ascii (n : Nat) : ∀ c ∈ escapeUnit n, c.toNat < 128 := by
  have h := fun k : Nat => hexDigit_ascii ⟨k % 16, Nat.mod_lt _ (by omega)⟩
  intro c hc
  unfold escapeUnit at hc
  simp only [List.mem_cons, List.not_mem_nil, or_false] at hc
  rcases hc with rfl | rfl | rfl | rfl | rfl | rfl
  · decide
  · decide
  · exact h _
  · exact h _
  · exact h _
  · exact h _

theorem shortEscape_ascii (n : Nat) (x : Char) (h : shortEscape n = some x) : x.toNat < 128 := by
  unfold shortEscape at h
  repeat' split at h
  all_goals first | (cases h; done) | (simp only [Option.some.injEq] at h; subst h; decide)

theorem escapeChar_ascii (c : CodePoint) : ∀ x ∈ escapeChar c, x.toNat < 128 := by
  intro x hx
  rcases escapeChar_cases c with ⟨y, hy, he⟩ | ⟨h1, h2, h3, h4⟩ | ⟨hc, he⟩ | ⟨hc, he⟩
  · rw [he] at hx
    simp only [List.mem_cons, List.not_mem_nil, or_false] at hx
    rcases hx with rfl | rfl
    · decide
    · exact shortEscape_ascii _ _ hy
  · obtain ⟨he, hv⟩ := escapeChar_printable c h1 h2 h3 h4
    rw [he] at hx
    simp only [List.mem_cons, List.not_mem_nil, or_false] at hx
    subst hx
    omega
  · rw [he] at hx
    exact escapeUnit_ascii _ _ hx
  · rw [he, List.mem_append] at hx
    rcases hx with hx | hx <;> exact escapeUnit_ascii _ _ hx

theorem dumpsStr_ascii (s : PyStr) : ∀ c ∈ dumpsStr s, c.toNat < 128 := by
  intro c hc
  unfold dumpsStr at hc
  simp only [List.mem_cons, List.mem_append, List.mem_flatMap, List.not_mem_nil, or_false] at hc
  rcases hc with rfl | ⟨x, -, hx⟩ | rfl
  · decide
  · exact escapeChar_ascii x c hx
  · decide

theorem toDigits_ascii (n : Nat) : ∀ c ∈ Nat.toDigits 10 n, c.toNat < 128 := by
  intro c hc
  have := Nat.isDigit_of_mem_toDigits (by omega) (by omega) hc
  simp only [Char.isDigit, Bool.and_eq_true, decide_eq_true_eq] at this
  have h2 : c.val ≤ 57 := this.2
  have : c.val.toNat ≤ 57 := by simpa using UInt32.le_iff_toNat_le.1 h2
  show c.val.toNat < 128
  omega

theorem digit_ascii {c : Char} (h : c.isDigit = true) : c.toNat < 128 := by
  rw [Char.isDigit_iff_toNat] at h
  have e : '9'.toNat = 57 := rfl
  omega

theorem jsonFloat_ascii {t : List Char} {d : Double} (h : Spec.JsonFloat t d) : ∀ c ∈ t, c.toNat < 128 := by
  obtain ⟨neg, ip, n, fp, ex, x, rfl, h1, h2, h3, -⟩ := h
  intro c hc
  rcases List.mem_append.1 hc with hc | hc
  · cases neg with
    | true => rw [List.mem_singleton.1 hc]; decide
    | false => cases hc
  rcases List.mem_append.1 hc with hc | hc
  · obtain ⟨_, _, _, h4, -⟩ := h1.facts
    exact digit_ascii (h4 c hc)
  rcases List.mem_append.1 hc with hc | hc
  · cases fp with
    | none => cases hc
    | some ds =>
      rcases List.mem_cons.1 hc with rfl | hc
      · decide
      · exact digit_ascii ((h2 ds rfl).2 c hc)
  · rcases h3 with ⟨rfl, -⟩ | ⟨e, neg, sign, ds, he, h4, h5, rfl, -⟩
    · cases hc
    · rcases List.mem_cons.1 hc with rfl | hc
      · rcases he with rfl | rfl <;> decide
      rcases List.mem_append.1 hc with hc | hc
      · simp only [Spec.signTexts, List.mem_cons, Prod.mk.injEq, List.not_mem_nil, or_false] at h4
        rcases h4 with ⟨rfl, rfl⟩ | ⟨rfl, rfl⟩ | ⟨rfl, rfl⟩
        · cases hc
        · rw [List.mem_singleton.1 hc]; decide
        · rw [List.mem_singleton.1 hc]; decide
      · exact digit_ascii (h5.2 c hc)

theorem dumpsDouble_ascii (d : Double) : ∀ c ∈ dumpsDouble d, c.toNat < 128 := by
  cases d with
  | nan => decide
  | num neg m =>
    by_cases hm : m.val = 2047 * 2 ^ 52
    · rw [dumpsDouble, if_pos hm]
      cases neg <;> decide
    · exact jsonFloat_ascii (jsonFloat_dumps neg m hm)

mutual
theorem dumpsJson_ascii (j : Json) : ∀ c ∈ dumpsJson j, c.toNat < 128 := by
  intro c hc
  match j with
  | .null => rw [dumpsJson] at hc; simp only [List.mem_cons, List.not_mem_nil, or_false] at hc; rcases hc with rfl | rfl | rfl | rfl <;> decide
  | .bool true => rw [dumpsJson] at hc; simp only [List.mem_cons, List.not_mem_nil, or_false] at hc; rcases hc with rfl | rfl | rfl | rfl <;> decide
  | .bool false => rw [dumpsJson] at hc; simp only [List.mem_cons, List.not_mem_nil, or_false] at hc; rcases hc with rfl | rfl | rfl | rfl | rfl <;> decide
  | .int i =>
    rw [dumpsJson] at hc
    unfold dumpsInt at hc
    split at hc
    · rcases List.mem_cons.1 hc with rfl | hc
      · decide
      · exact toDigits_ascii _ _ hc
    · exact toDigits_ascii _ _ hc
  | .float d => rw [dumpsJson] at hc; exact dumpsDouble_ascii d c hc
  | .str s => rw [dumpsJson] at hc; exact dumpsStr_ascii s c hc
  | .arr l =>
    rw [dumpsJson] at hc
    simp only [List.mem_cons, List.mem_append, List.not_mem_nil, or_false] at hc
    rcases hc with rfl | hc | rfl
    · decide
    · exact dumpsElems_ascii l c hc
    · decide
  | .obj l =>
    rw [dumpsJson] at hc
    simp only [List.mem_cons, List.mem_append, List.not_mem_nil, or_false] at hc
    rcases hc with rfl | hc | rfl
    · decide
    · exact dumpsItems_ascii l c hc
    · decide
theorem dumpsElems_ascii (l : List Json) : ∀ c ∈ dumpsElems l, c.toNat < 128 := by
  intro c hc
  match l with
  | [] => rw [dumpsElems] at hc; cases hc
  | v :: vs =>
    rw [dumpsElems, List.mem_append] at hc
    rcases hc with hc | hc
    · exact dumpsJson_ascii v c hc
    · split at hc
      · cases hc
      · rcases List.mem_cons.1 hc with rfl | hc
        · decide
        · exact dumpsElems_ascii vs c hc
theorem dumpsItems_ascii (l : List (PyStr × Json)) : ∀ c ∈ dumpsItems l, c.toNat < 128 := by
  intro c hc
  match l with
  | [] => rw [dumpsItems] at hc; cases hc
  | kv :: kvs =>
    rw [dumpsItems, List.mem_append] at hc
    rcases hc with hc | hc
    · exact dumpsItem_ascii kv c hc
    · split at hc
      · cases hc
      · rcases List.mem_cons.1 hc with rfl | hc
        · decide
        · exact dumpsItems_ascii kvs c hc
theorem dumpsItem_ascii (kv : PyStr × Json) : ∀ c ∈ dumpsItem kv, c.toNat < 128 := by
  intro c hc
  match kv with
  | (k, v) =>
    rw [dumpsItem, List.mem_append, List.mem_cons] at hc
    rcases hc with hc | rfl | hc
    · exact dumpsStr_ascii k c hc
    · decide
    · exact dumpsJson_ascii v c hc
end

/-! ### what joining leaves alone -/

theorem joinPairs_length : ∀ (n : Nat) (s : PyStr), s.length = n → (Spec.joinPairs s).length ≤ s.length := by
  intro n
  induction n using Nat.strongRecOn with
  | _ n ih =>
    intro s hn
    match s, hn with
    | [], _ => simp [Spec.joinPairs]
    | [c], _ => simp [Spec.joinPairs]
    | h :: l :: r, hn =>
      simp only [List.length_cons] at hn
      unfold Spec.joinPairs
      split
      · have := ih r.length (by omega) r rfl
        simp only [List.length_cons]
        omega
      · have := ih (l :: r).length (by simp; omega) (l :: r) rfl
        simp only [List.length_cons] at this ⊢
        omega

theorem joinPairs_eq_iff : ∀ (n : Nat) (s : PyStr), s.length = n → (Spec.joinPairs s = s ↔ Spec.noPairs s = true) := by
  intro n
  induction n using Nat.strongRecOn with
  | _ n ih =>
    intro s hn
    match s, hn with
    | [], _ => simp [Spec.joinPairs, Spec.noPairs]
    | [c], _ => simp [Spec.joinPairs, Spec.noPairs]
    | h :: l :: r, hn =>
      simp only [List.length_cons] at hn
      unfold Spec.joinPairs Spec.noPairs
      by_cases hp : Spec.SurrogatePair h l
      · rw [if_pos hp]
        simp only [hp, decide_true, Bool.not_true, Bool.false_and, Bool.false_eq_true, iff_false]
        intro he
        have h1 := congrArg List.length he
        have h2 := joinPairs_length _ r rfl
        simp only [List.length_cons] at h1
        omega
      · rw [if_neg hp]
        simp only [hp, decide_false, Bool.not_false, Bool.true_and, List.cons.injEq, true_and]
        exact ih (l :: r).length (by simp; omega) (l :: r) rfl

theorem dictSet_length (d : List (PyStr × Json)) (k v) : (dictSet d k v).length = d.length ∨ dictSet d k v = d ++ [(k, v)] := by
  unfold dictSet
  split
  · left; simp
  · right; rfl

theorem foldl_dictSet_length (xs : List (PyStr × Json)) : ∀ d : List (PyStr × Json),
    (xs.foldl (fun d x => dictSet d x.1 x.2) d).length ≤ d.length + xs.length ∧
    ((xs.foldl (fun d x => dictSet d x.1 x.2) d).length = d.length + xs.length → xs.foldl (fun d x => dictSet d x.1 x.2) d = d ++ xs) := by
  induction xs with
  | nil => intro d; simp
  | cons x xs ih =>
    intro d
    rw [List.foldl_cons]
    obtain ⟨h1, h2⟩ := ih (dictSet d x.1 x.2)
    rcases dictSet_length d x.1 x.2 with h | h
    · rw [h] at h1 h2
      simp only [List.length_cons]
      exact ⟨by omega, fun he => by omega⟩
    · rw [h] at h1 h2 ⊢
      simp only [List.length_append, List.length_cons, List.length_nil] at h1 h2 ⊢
      refine ⟨by omega, fun he => ?_⟩
      rw [h2 (by omega), List.append_assoc]
      rfl

theorem foldl_dictSet_nodup (xs : List (PyStr × Json)) : ∀ d : List (PyStr × Json), ((d ++ xs).map (·.1)).Nodup →
    xs.foldl (fun d x => dictSet d x.1 x.2) d = d ++ xs := by
  induction xs with
  | nil => intro d _; simp
  | cons x xs ih =>
    intro d hd
    have hx : (d.map (·.1)).contains x.1 = false := by
      rw [← Bool.not_eq_true]
      simp only [List.contains_iff_mem]
      intro hm
      rw [List.map_append, List.map_cons, List.nodup_append] at hd
      exact hd.2.2 x.1 hm x.1 List.mem_cons_self rfl
    have hs : dictSet d x.1 x.2 = d ++ [x] := by
      unfold dictSet
      rw [hx]
      rfl
    rw [List.foldl_cons, hs, ih]
    · simp
    · simpa using hd

theorem dictOfPairs_nodup (l : List (PyStr × Json)) (h : (l.map (·.1)).Nodup) : dictOfPairs l = l := by
  have := foldl_dictSet_nodup l [] (by simpa using h)
  simpa [dictOfPairs] using this

theorem joinedItems_length (l : List (PyStr × Json)) : (Spec.joinedItems l).length = l.length := by
  induction l with
  | nil => rw [Spec.joinedItems]
  | cons x xs ih => rw [Spec.joinedItems, List.length_cons, List.length_cons, ih]

theorem dictOfPairs_same_length (l m : List (PyStr × Json)) (hl : m.length = l.length) (h : dictOfPairs m = l) : m = l := by
  have := (foldl_dictSet_length m []).2 (by
    have := congrArg List.length h
    unfold dictOfPairs at this
    simp only [List.length_nil]
    omega)
  unfold dictOfPairs at h
  rw [h] at this
  simpa using this.symm

mutual
theorem joined_eq_iff (j : Json) (hj : Spec.isObject j = true) : Spec.joined j = j ↔ Spec.pairFree j = true := by
  match j with
  | .null => simp [Spec.joined, Spec.pairFree]
  | .bool b => simp [Spec.joined, Spec.pairFree]
  | .int i => simp [Spec.joined, Spec.pairFree]
  | .float d => simp [Spec.joined, Spec.pairFree]
  | .str s =>
    rw [Spec.joined, Spec.pairFree, ← joinPairs_eq_iff _ s rfl]
    simp
  | .arr l =>
    rw [Spec.isObject] at hj
    rw [Spec.joined, Spec.pairFree, ← joinedElems_eq_iff l hj]
    simp
  | .obj l =>
    rw [Spec.isObject, Bool.and_eq_true, decide_eq_true_eq] at hj
    rw [Spec.joined, Spec.pairFree, ← joinedItems_eq_iff l hj.2]
    simp only [Json.obj.injEq]
    constructor
    · exact dictOfPairs_same_length l _ (joinedItems_length l)
    · intro h
      rw [h, dictOfPairs_nodup _ hj.1]
theorem joinedElems_eq_iff (l : List Json) (hl : Spec.isObjectElems l = true) : Spec.joinedElems l = l ↔ Spec.pairFreeElems l = true := by
  match l with
  | [] => simp [Spec.joinedElems, Spec.pairFreeElems]
  | v :: vs =>
    rw [Spec.isObjectElems, Bool.and_eq_true] at hl
    rw [Spec.joinedElems, Spec.pairFreeElems, Bool.and_eq_true, ← joined_eq_iff v hl.1, ← joinedElems_eq_iff vs hl.2]
    simp
theorem joinedItems_eq_iff (l : List (PyStr × Json)) (hl : Spec.isObjectItems l = true) :
    Spec.joinedItems l = l ↔ Spec.pairFreeItems l = true := by
  match l with
  | [] => simp [Spec.joinedItems, Spec.pairFreeItems]
  | kv :: kvs =>
    rw [Spec.isObjectItems, Bool.and_eq_true] at hl
    rw [Spec.joinedItems, Spec.pairFreeItems, Bool.and_eq_true, ← joinedItem_eq_iff kv hl.1, ← joinedItems_eq_iff kvs hl.2]
    simp
theorem joinedItem_eq_iff (kv : PyStr × Json) (hl : Spec.isObjectItem kv = true) :
    Spec.joinedItem kv = kv ↔ Spec.pairFreeItem kv = true := by
  match kv with
  | (k, v) =>
    rw [Spec.isObjectItem] at hl
    rw [Spec.joinedItem, Spec.pairFreeItem, Bool.and_eq_true, ← joined_eq_iff v hl, ← joinPairs_eq_iff _ k rfl]
    simp
end

/-! ### the property -/

theorem skipWs_nil : skipWs [] = [] := rfl

/-- C42, for every object: what loading its dump gives. -/
theorem C42_exact (j : Json) : loadsJson (encodeUtf8 (dumpsJson j)) = .ok (Spec.joined j) := by
  have hu : ByteArray.utf8Decode? (encodeUtf8 (dumpsJson j)).toByteArray = some (dumpsJson j).toArray := by
    have : (encodeUtf8 (dumpsJson j)).toByteArray = (dumpsJson j).utf8Encode := rfl
    rw [this, List.utf8Decode?_utf8Encode]
  unfold loadsJson
  rw [hu]
  simp only [loadsText]
  have h1 := skipWs_dumps j []
  have h2 := parse_dumps j (2 * (dumpsJson j).length + 2) [] stops_nil (by omega)
  rw [List.append_nil] at h1 h2
  rw [h1, h2]
  rfl

/-- C42, round trip: loading the dump of an object gives the object back if and only if none of its strings contains a
high surrogate directly followed by a low one. -/
theorem C42_roundtrip (j : Json) (hj : Spec.isObject j = true) :
    loadsJson (encodeUtf8 (dumpsJson j)) = .ok j ↔ Spec.pairFree j = true := by
  rw [C42_exact, ← joined_eq_iff j hj, Except.ok.injEq]

/-- C42, size: the dump is ASCII, so that it has as many bytes as characters. -/
theorem C42_ascii (j : Json) : (∀ c ∈ dumpsJson j, c.toNat < 128) ∧ (encodeUtf8 (dumpsJson j)).length = (dumpsJson j).length :=
  ⟨dumpsJson_ascii j, by
    have h := dumpsJson_ascii j
    generalize dumpsJson j = s at h
    induction s with
    | nil => rfl
    | cons c s ih =>
      have hc : (String.utf8EncodeChar c).length = 1 := by
        have h1 := h c List.mem_cons_self
        rw [String.length_utf8EncodeChar, Char.utf8Size_eq_one_iff, UInt32.le_iff_toNat_le]
        have : c.val.toNat < 128 := h1
        have e : (127 : UInt32).toNat = 127 := rfl
        omega
      have := ih (fun x hx => h x (List.mem_cons_of_mem _ hx))
      simp only [encodeUtf8, List.flatMap_cons, List.length_append, List.length_cons] at this ⊢
      omega⟩

/-- an object using every case: nested, a control character, a character outside the BMP, a lone surrogate -/
def jsonExample : Json :=
  .obj [([107, 34], .arr [.int (-120), .null, .bool false, .obj [], .float (.num true 0x3FB999999999999A), .float .nan]), ([], .str [0, 10, 127, 0xDC00, 0xD83D, 0x1F600, 0xE9])]

example : Spec.isObject jsonExample = true ∧ Spec.pairFree jsonExample = true ∧
    String.ofList (dumpsJson jsonExample) = "{\"k\\\"\":[-120,null,false,{},-0.1,NaN],\"\":\"\\u0000\\n\\u007f\\udc00\\ud83d\\ud83d\\ude00\\u00e9\"}" := by
  decide +kernel

/-- a string that does not survive -/
example : Spec.isObject (.str [0xD83D, 0xDE00]) = true ∧ Spec.pairFree (.str [0xD83D, 0xDE00]) = false ∧
    Spec.joinPairs [0xD83D, 0xDE00] = [0x1F600] := by decide +kernel

end Bloscpack
