import Verif.Model.Pretty
import Verif.Spec.Text
/-
C38: human readable sizes.
-/
namespace Bloscpack

/-! ### rounding is exact on numbers with at most 53 bits -/

theorem round_window (X Y : Nat) (hX : 0 < X) (hY : 0 < Y) (e0 e : Int) (h0 : e0 = (X.log2 : Int) - Y.log2 - 53)
    (he : e = if X * 2 ^ (-e0).toNat < 2 ^ 53 * (Y * 2 ^ e0.toNat) then e0 else e0 + 1) :
    2 ^ 52 * (Y * 2 ^ e.toNat) ≤ X * 2 ^ (-e).toNat := by
  split at he
  · subst he
    have hx := Nat.log2_self_le (Nat.ne_of_gt hX)
    have hy := Nat.lt_log2_self (n := Y)
    have h1 : Y * 2 ^ e.toNat ≤ 2 ^ (Y.log2 + 1) * 2 ^ e.toNat := Nat.mul_le_mul_right _ (Nat.le_of_lt hy)
    have h2 : 2 ^ X.log2 * 2 ^ (-e).toNat ≤ X * 2 ^ (-e).toNat := Nat.mul_le_mul_right _ hx
    rw [← Nat.pow_add] at h1 h2
    have h3 : 2 ^ 52 * (Y * 2 ^ e.toNat) ≤ 2 ^ 52 * 2 ^ (Y.log2 + 1 + e.toNat) := Nat.mul_le_mul_left _ h1
    rw [← Nat.pow_add] at h3
    have h4 : 52 + (Y.log2 + 1 + e.toNat) = X.log2 + (-e).toNat := by omega
    rw [h4] at h3
    omega
  · rename_i hn
    have hn := Nat.not_lt.1 hn
    subst he
    by_cases h : 0 ≤ e0
    · have e1 : (-e0).toNat = 0 := by omega
      have e2 : (-(e0 + 1)).toNat = 0 := by omega
      have e3 : (e0 + 1).toNat = e0.toNat + 1 := by omega
      rw [e1] at hn
      rw [e2, e3, show 2 ^ (e0.toNat + 1) = 2 ^ e0.toNat * 2 from rfl]
      generalize 2 ^ e0.toNat = P at hn ⊢
      rw [← Nat.mul_assoc Y]
      generalize Y * P = Q at hn ⊢
      omega
    · have e1 : (-e0).toNat = (-(e0 + 1)).toNat + 1 := by omega
      have e2 : e0.toNat = 0 := by omega
      have e3 : (e0 + 1).toNat = 0 := by omega
      rw [e1, e2, show 2 ^ ((-(e0 + 1)).toNat + 1) = 2 ^ (-(e0 + 1)).toNat * 2 from rfl, ← Nat.mul_assoc] at hn
      rw [e3]
      rw [Nat.pow_zero, Nat.mul_one, ← Nat.mul_assoc] at *
      generalize X * 2 ^ (-(e0 + 1)).toNat = Q at hn ⊢
      omega

theorem round_window_upper (X Y : Nat) (hY : 0 < Y) (e0 e : Int) (h0 : e0 = (X.log2 : Int) - Y.log2 - 53)
    (he : e = if X * 2 ^ (-e0).toNat < 2 ^ 53 * (Y * 2 ^ e0.toNat) then e0 else e0 + 1) :
    X * 2 ^ (-e).toNat < 2 ^ 53 * (Y * 2 ^ e.toNat) := by
  split at he
  · subst he; assumption
  · subst he
    have hx : X < 2 ^ (X.log2 + 1) := Nat.lt_log2_self
    have hy : 2 ^ Y.log2 ≤ Y := Nat.log2_self_le (Nat.ne_of_gt hY)
    have h1 : X * 2 ^ (-(e0 + 1)).toNat < 2 ^ (X.log2 + 1) * 2 ^ (-(e0 + 1)).toNat := Nat.mul_lt_mul_of_pos_right hx (Nat.two_pow_pos _)
    have h2 : 2 ^ Y.log2 * 2 ^ (e0 + 1).toNat ≤ Y * 2 ^ (e0 + 1).toNat := Nat.mul_le_mul_right _ hy
    have h3 : 2 ^ 53 * (2 ^ Y.log2 * 2 ^ (e0 + 1).toNat) ≤ 2 ^ 53 * (Y * 2 ^ (e0 + 1).toNat) := Nat.mul_le_mul_left _ h2
    rw [← Nat.pow_add, ← Nat.pow_add] at h3
    rw [← Nat.pow_add] at h1
    have h4 : X.log2 + 1 + (-(e0 + 1)).toNat = 53 + (Y.log2 + (e0 + 1).toNat) := by omega
    rw [h4] at h1
    omega

/-- `roundScaled` rounds to the nearest integer, ties to even -/
theorem roundScaled_nearest (X Y : Nat) (e : Int) (hY : 0 < Y) :
    2 * (roundScaled X Y e * (Y * 2 ^ e.toNat)) ≤ 2 * (X * 2 ^ (-e).toNat) + Y * 2 ^ e.toNat ∧
    2 * (X * 2 ^ (-e).toNat) ≤ 2 * (roundScaled X Y e * (Y * 2 ^ e.toNat)) + Y * 2 ^ e.toNat ∧
    (2 * (roundScaled X Y e * (Y * 2 ^ e.toNat)) = 2 * (X * 2 ^ (-e).toNat) + Y * 2 ^ e.toNat ∨
      2 * (X * 2 ^ (-e).toNat) = 2 * (roundScaled X Y e * (Y * 2 ^ e.toNat)) + Y * 2 ^ e.toNat → roundScaled X Y e % 2 = 0) := by
  have hd : 0 < Y * 2 ^ e.toNat := Nat.mul_pos hY (Nat.two_pow_pos _)
  unfold roundScaled
  simp only
  generalize X * 2 ^ (-e).toNat = n
  generalize Y * 2 ^ e.toNat = d at hd ⊢
  have h1 : d * (n / d) + n % d = n := Nat.div_add_mod n d
  have h2 := Nat.mod_lt n hd
  rw [Nat.mul_comm] at h1
  have h3 : (n / d + 1) * d = n / d * d + d := Nat.succ_mul _ _
  generalize n / d = q at *
  generalize n % d = r at *
  generalize hP : q * d = P at *
  split
  · rw [hP]; refine ⟨?_, ?_, ?_⟩ <;> omega
  · split
    · rw [h3]; refine ⟨?_, ?_, ?_⟩ <;> omega
    · split
      · rw [hP]; refine ⟨?_, ?_, ?_⟩ <;> omega
      · rw [h3]; refine ⟨?_, ?_, ?_⟩ <;> omega

/-- a number with at most 53 bits is represented exactly -/
theorem roundFlt_value (X Y M j : Nat) (hX : 0 < X) (hY : 0 < Y) (hM : M < 2 ^ 53) (hj : X * 2 ^ j = M * Y) :
    ∃ (p m : Nat), roundFlt X Y = (m, -(p : Int)) ∧ X * 2 ^ p = m * Y := by
  have hMY : M * Y < 2 ^ 53 * Y := Nat.mul_lt_mul_of_pos_right hM hY
  generalize hE : (roundFlt X Y).2 = e
  have hE' : e = if X * 2 ^ (-((X.log2 : Int) - Y.log2 - 53)).toNat < 2 ^ 53 * (Y * 2 ^ ((X.log2 : Int) - Y.log2 - 53).toNat)
      then (X.log2 : Int) - Y.log2 - 53 else (X.log2 : Int) - Y.log2 - 53 + 1 := by
    rw [← hE, roundFlt, if_neg (Nat.ne_of_gt hX)]
  have hR : (roundFlt X Y).1 = roundScaled X Y e := by
    rw [← hE, roundFlt, if_neg (Nat.ne_of_gt hX)]
  have hw := round_window X Y hX hY _ e rfl hE'
  -- the exponent is not positive and at least `j` bits are kept after the point
  have he0 : e ≤ 0 := by
    by_cases h : 0 < e
    · exfalso
      have e1 : (-e).toNat = 0 := by omega
      obtain ⟨t, ht⟩ : ∃ t, e.toNat = t + 1 := ⟨e.toNat - 1, by omega⟩
      rw [e1, ht, Nat.pow_zero, Nat.mul_one, show 2 ^ (t + 1) = 2 ^ t * 2 from rfl] at hw
      have h1 : X ≤ X * 2 ^ j := Nat.le_mul_of_pos_right _ (Nat.two_pow_pos _)
      have h2 : Y * 2 ≤ Y * (2 ^ t * 2) := Nat.mul_le_mul_left _ (by have := Nat.two_pow_pos t; omega)
      generalize Y * (2 ^ t * 2) = Q at h2 hw
      omega
    · omega
  obtain ⟨p, hp⟩ : ∃ p : Nat, e = -(p : Int) := ⟨(-e).toNat, by omega⟩
  subst hp
  have e1 : (-(p : Int)).toNat = 0 := by omega
  have e2 : (-(-(p : Int))).toNat = p := by omega
  rw [e1, e2, Nat.pow_zero, Nat.mul_one] at hw
  have hjp : j ≤ p := by
    by_cases h : j ≤ p
    · exact h
    · exfalso
      have h1 : X * 2 ^ (p + 1) ≤ X * 2 ^ j := Nat.mul_le_mul_left _ (Nat.pow_le_pow_right (by omega) (by omega))
      rw [Nat.pow_succ, ← Nat.mul_assoc] at h1
      omega
  have hn : X * 2 ^ p = M * 2 ^ (p - j) * Y := by
    have : 2 ^ p = 2 ^ j * 2 ^ (p - j) := by rw [← Nat.pow_add]; congr 1; omega
    rw [this, ← Nat.mul_assoc, hj, Nat.mul_right_comm]
  have hmant : roundScaled X Y (-(p : Int)) = M * 2 ^ (p - j) := by
    unfold roundScaled
    rw [e1, e2, Nat.pow_zero, Nat.mul_one, hn]
    simp only [Nat.mul_mod_left, Nat.mul_div_cancel _ hY]
    rw [if_pos (by omega)]
  exact ⟨p, M * 2 ^ (p - j), Prod.ext (by rw [hR, hmant]) hE, hn⟩

theorem roundFlt_exact (X Y M j : Nat) (hX : 0 < X) (hY : 0 < Y) (hM : M < 2 ^ 53) (hj : X * 2 ^ j = M * Y) (neg : Bool) (k : Nat) :
    Flt.truncMul ⟨neg, (roundFlt X Y).1, (roundFlt X Y).2⟩ k = if neg then -((X * k / Y : Nat) : Int) else (X * k / Y : Nat) := by
  obtain ⟨p, m, hr, hn⟩ := roundFlt_value X Y M j hX hY hM hj
  have e1 : (-(p : Int)).toNat = 0 := by omega
  have e2 : (-(-(p : Int))).toNat = p := by omega
  have hval : (if 0 ≤ (-(p : Int)) then m * 2 ^ (-(p : Int)).toNat * k else m * k / 2 ^ (-(-(p : Int))).toNat) = X * k / Y := by
    have hgoal : m * k / 2 ^ p = X * k / Y := by
      have h2p := Nat.two_pow_pos p
      rw [← Nat.mul_div_mul_right _ _ hY, ← Nat.mul_div_mul_right (X * k) Y h2p]
      rw [show m * k * Y = X * k * 2 ^ p by rw [Nat.mul_right_comm, ← hn, Nat.mul_right_comm], Nat.mul_comm Y]
    rw [e1, e2, ← hgoal]
    split
    · have : p = 0 := by omega
      subst this
      simp
    · rfl
  rw [hr]
  unfold Flt.truncMul
  simp only [hval]

/-! ### reading decimal digits -/

theorem takeDigits_all (ds rest : List Char) (hd : ∀ c ∈ ds, c.isDigit = true) (hr : ∀ c ∈ rest.head?, c.isDigit = false) (v k : Nat) :
    takeDigits (ds ++ rest) v k = (ds.foldl (fun v c => 10 * v + (c.toNat - 48)) v, k + ds.length, rest) := by
  induction ds generalizing v k with
  | nil =>
    cases rest with
    | nil => rfl
    | cons c cs => simp [takeDigits, hr c (by simp)]
  | cons c cs ih =>
    rw [List.cons_append, takeDigits, if_pos (hd c List.mem_cons_self), ih (fun x hx => hd x (List.mem_cons_of_mem _ hx))]
    simp [Nat.add_assoc, Nat.add_comm 1]

theorem decimal_append (a b : List Char) : Spec.decimal (a ++ b) = b.foldl (fun v c => 10 * v + (c.toNat - 48)) (Spec.decimal a) := by
  simp [Spec.decimal]

theorem digit_ne {c : Char} (h : c.isDigit = true) : c ≠ '-' ∧ c ≠ '+' ∧ c ≠ '.' := by
  refine ⟨?_, ?_, ?_⟩ <;> rintro rfl <;> cases h

theorem takeSign_digits (ds : List Char) (hd : ∀ c ∈ ds.head?, c ≠ '-' ∧ c ≠ '+') : takeSign ds = (false, ds) := by
  unfold takeSign
  split
  · exact absurd rfl (hd '-' (by simp)).1
  · exact absurd rfl (hd '+' (by simp)).2
  · rfl

/-- how a plain decimal number is read -/
theorem parseFloat_decimal (neg : Bool) (ip : List Char) (fp : Option (List Char)) (hi : ∀ c ∈ ip, c.isDigit = true)
    (hf : ∀ c ∈ fp.getD [], c.isDigit = true) (hne : ip ≠ [] ∨ fp.getD [] ≠ []) :
    parseFloat (Spec.decimalText neg ip fp) = some ⟨neg, (roundFlt (Spec.decimal (ip ++ fp.getD [])) (10 ^ (fp.getD []).length)).1,
      (roundFlt (Spec.decimal (ip ++ fp.getD [])) (10 ^ (fp.getD []).length)).2⟩ := by
  have hlen : ip.length + (fp.getD []).length ≠ 0 := by
    rcases hne with h | h
    · have := List.length_pos_iff.2 h; omega
    · have := List.length_pos_iff.2 h; omega
  have hs : takeSign (Spec.decimalText neg ip fp) = (neg, ip ++ (Spec.fractionText fp)) := by
    unfold Spec.decimalText
    cases neg with
    | true => rfl
    | false =>
      apply takeSign_digits
      intro c hc
      cases ip with
      | cons x xs =>
        simp at hc
        subst hc
        exact ⟨(digit_ne (hi _ List.mem_cons_self)).1, (digit_ne (hi _ List.mem_cons_self)).2.1⟩
      | nil =>
        cases fp with
        | none => simp [Spec.fractionText] at hc
        | some f => simp [Spec.fractionText] at hc; subst hc; decide
  have h1 := takeDigits_all ip (Spec.fractionText fp) hi (by cases fp <;> simp [Spec.fractionText]) 0 0
  have hx : ((0 : Int) - (fp.getD []).length).toNat = 0 := by omega
  have hy : (-((0 : Int) - (fp.getD []).length)).toNat = (fp.getD []).length := by omega
  have h2 : takeFraction (Spec.decimal ip) (Spec.fractionText fp) =
      (Spec.decimal (ip ++ fp.getD []), (fp.getD []).length, []) := by
    cases fp with
    | none => simp [takeFraction, Spec.fractionText]
    | some f =>
      have := takeDigits_all f [] hf (by simp) (Spec.decimal ip) 0
      rw [List.append_nil, Nat.zero_add] at this
      rw [decimal_append]
      exact this
  unfold parseFloat
  rw [hs]
  simp only [h1, show (ip.foldl (fun v c => 10 * v + (c.toNat - 48)) 0) = Spec.decimal ip from rfl, h2, Nat.zero_add, if_neg hlen,
    parseExp, hx, hy, Nat.pow_zero, Nat.mul_one]

/-- without whitespace, underscores and letters `float` reads a decimal number -/
theorem dropUnderscores_none : ∀ (s : List Char) (prev : Option Char), prev ≠ some '_' → (∀ c ∈ s, c ≠ '_') → dropUnderscores prev s = some s
  | [], prev, hp, _ => by simp [dropUnderscores, hp]
  | c :: cs, prev, hp, h => by
    have hc := h c List.mem_cons_self
    rw [dropUnderscores, if_neg hc, if_neg (fun x => hp x.1),
      dropUnderscores_none cs (some c) (by simpa using hc) (fun x hx => h x (List.mem_cons_of_mem _ hx))]
    rfl

theorem dropWhile_none {α : Type} (p : α → Bool) (s : List α) (h : ∀ c ∈ s, p c = false) : s.dropWhile p = s := by
  cases s with
  | nil => rfl
  | cons c cs => rw [List.dropWhile_cons, if_neg (by rw [h c List.mem_cons_self]; decide)]

theorem stripSpaces_none (s : List Char) (h : ∀ c ∈ s, isPySpace c = false) : stripSpaces s = s := by
  unfold stripSpaces
  rw [dropWhile_none _ _ h, dropWhile_none _ _ (fun c hc => h c (List.mem_reverse.1 hc)), List.reverse_reverse]

theorem takeSign_mem {s : List Char} {c : Char} (h : c ∈ (takeSign s).2) : c ∈ s := by
  unfold takeSign at h
  split at h
  · exact List.mem_cons_of_mem _ h
  · exact List.mem_cons_of_mem _ h
  · exact h

/-- the characters of a plain decimal number -/
def plainChar (c : Char) : Prop := c.isDigit = true ∨ c = '.' ∨ c = '-'

theorem plainChar_facts {c : Char} (h : plainChar c) : isPySpace c = false ∧ c ≠ '_' ∧ c.toLower ≠ 'i' ∧ c.toLower ≠ 'n' := by
  rcases h with h | rfl | rfl
  · have h1 : 48 ≤ c.toNat ∧ c.toNat ≤ 57 := by
      simp only [Char.isDigit, Bool.and_eq_true, decide_eq_true_eq] at h
      exact ⟨h.1, h.2⟩
    have hl : c.toLower = c := by
      unfold Char.toLower
      rw [dif_neg]
      intro hx
      have hx1 : 65 ≤ c.toNat := hx.1
      omega
    refine ⟨?_, ?_, ?_, ?_⟩
    · unfold isPySpace
      have : c ≠ ' ' := by rintro rfl; exact absurd h1 (by decide)
      simp [this]
      omega
    · rintro rfl; exact absurd h1 (by decide)
    · rw [hl]; rintro rfl; exact absurd h1 (by decide)
    · rw [hl]; rintro rfl; exact absurd h1 (by decide)
  · decide
  · decide

theorem pyFloat_plain (s : List Char) (h : ∀ c ∈ s, plainChar c) : pyFloat s = (parseFloat s).map .finite := by
  have hw : ∀ x xs, x = 'i' ∨ x = 'n' → (takeSign s).2.map Char.toLower ≠ x :: xs := by
    intro x xs hx heq
    have hm : x ∈ (takeSign s).2.map Char.toLower := by rw [heq]; exact List.mem_cons_self
    obtain ⟨c, hc, rfl⟩ := List.mem_map.1 hm
    have := plainChar_facts (h c (takeSign_mem hc))
    rcases hx with hx | hx
    · exact this.2.2.1 hx
    · exact this.2.2.2 hx
  unfold pyFloat
  rw [stripSpaces_none s (fun c hc => (plainChar_facts (h c hc)).1),
    dropUnderscores_none s none (by simp) (fun c hc => (plainChar_facts (h c hc)).2.1)]
  simp only
  rw [if_neg, if_neg]
  · exact hw 'n' _ (.inr rfl)
  · rintro (h | h)
    · exact hw 'i' _ (.inl rfl) h
    · exact hw 'i' _ (.inl rfl) h

theorem decimalText_plain (neg : Bool) (ip : List Char) (fp : Option (List Char)) (hi : ∀ c ∈ ip, c.isDigit = true)
    (hf : ∀ c ∈ fp.getD [], c.isDigit = true) : ∀ c ∈ Spec.decimalText neg ip fp, plainChar c := by
  intro c hc
  unfold Spec.decimalText at hc
  rw [List.mem_append, List.mem_append] at hc
  rcases hc with (hc | hc) | hc
  · cases neg with
    | true => exact .inr (.inr (by simpa using hc))
    | false => cases hc
  · exact .inl (hi c hc)
  · cases fp with
    | none => cases hc
    | some f =>
      rcases List.mem_cons.1 hc with rfl | hc
      · exact .inr (.inl rfl)
      · exact .inl (hf c hc)

/-! ### C38 -/

theorem suffixValue_spec (c : Char) (k : Nat) : (c, k) ∈ Spec.multiplier ↔ suffixValue c = some k := by
  unfold suffixValue Spec.multiplier
  constructor
  · intro h
    simp only [List.mem_cons, Prod.mk.injEq, List.not_mem_nil, or_false] at h
    rcases h with ⟨rfl, rfl⟩ | ⟨rfl, rfl⟩ | ⟨rfl, rfl⟩ | ⟨rfl, rfl⟩ | ⟨rfl, rfl⟩ <;> rfl
  · split <;> intro h <;> simp at h <;> subst h <;> simp

/-- C38, fractions: a decimal number `n / 10^f` (`n` the number written by all its digits, `f` of them after the point)
followed by a suffix means exactly that many bytes, rounded towards zero, whenever the number has at most 53 binary
digits. -/
theorem C38_decimal (neg : Bool) (ip : List Char) (fp : Option (List Char)) (suffix : Char) (k M j : Nat)
    (hi : ∀ c ∈ ip, c.isDigit = true) (hf : ∀ c ∈ fp.getD [], c.isDigit = true) (hne : ip ≠ [] ∨ fp.getD [] ≠ [])
    (hk : (suffix, k) ∈ Spec.multiplier) (hM : M < 2 ^ 53)
    (hj : Spec.decimal (ip ++ fp.getD []) * 2 ^ j = M * 10 ^ (fp.getD []).length) :
    reversePretty (Spec.decimalText neg ip fp ++ [suffix]) =
      .ok ((if neg then -1 else 1) * ((Spec.decimal (ip ++ fp.getD []) * k / 10 ^ (fp.getD []).length : Nat) : Int)) := by
  unfold reversePretty
  rw [List.getLast?_concat, List.dropLast_concat]
  simp only [(suffixValue_spec _ _).1 hk]
  rw [pyFloat_plain _ (decimalText_plain neg ip fp hi hf), parseFloat_decimal neg ip fp hi hf hne]
  have hk40 : k ≤ 2 ^ 40 := by
    simp only [Spec.multiplier, List.mem_cons, Prod.mk.injEq, List.not_mem_nil, or_false] at hk
    omega
  have hval : Flt.truncMul ⟨neg, (roundFlt (Spec.decimal (ip ++ fp.getD [])) (10 ^ (fp.getD []).length)).1,
      (roundFlt (Spec.decimal (ip ++ fp.getD [])) (10 ^ (fp.getD []).length)).2⟩ k =
      (if neg then -1 else 1) * ((Spec.decimal (ip ++ fp.getD []) * k / 10 ^ (fp.getD []).length : Nat) : Int) := by
    by_cases h0 : Spec.decimal (ip ++ fp.getD []) = 0
    · rw [h0]
      cases neg <;> simp [roundFlt, Flt.truncMul]
    · rw [roundFlt_exact _ _ M j (by omega) (Nat.pow_pos (by omega)) hM hj]
      cases neg <;> simp
  have hsmall : Spec.decimal (ip ++ fp.getD []) * k / 10 ^ (fp.getD []).length < 2 ^ 1024 := by
    have hD : 0 < 10 ^ (fp.getD []).length := Nat.pow_pos (by omega)
    have h1 : Spec.decimal (ip ++ fp.getD []) ≤ M * 10 ^ (fp.getD []).length := by
      rw [← hj]; exact Nat.le_mul_of_pos_right _ (Nat.two_pow_pos _)
    have h2 : Spec.decimal (ip ++ fp.getD []) * k ≤ (M * k) * 10 ^ (fp.getD []).length := by
      rw [Nat.mul_right_comm]; exact Nat.mul_le_mul_right _ h1
    have h3 : Spec.decimal (ip ++ fp.getD []) * k / 10 ^ (fp.getD []).length ≤ M * k := by
      rw [← Nat.mul_div_cancel (M * k) hD]; exact Nat.div_le_div_right h2
    have h4 : M * k ≤ 2 ^ 53 * 2 ^ 40 := Nat.mul_le_mul (by omega) hk40
    have h5 : 2 ^ 53 * 2 ^ 40 < 2 ^ 1024 := by rw [← Nat.pow_add]; exact Nat.pow_lt_pow_right (by omega) (by omega)
    exact Nat.lt_of_le_of_lt (Nat.le_trans h3 h4) h5
  simp only [Option.map_some, PyFloat.truncMul, hval]
  generalize Spec.decimal (ip ++ fp.getD []) * k / 10 ^ (fp.getD []).length = v at hsmall ⊢
  rw [if_pos]
  cases neg <;> simpa using hsmall

theorem roundFlt_nearest (X Y : Nat) (hX : 0 < X) (hY : 0 < Y) : Spec.NearestDouble X Y (roundFlt X Y).1 (roundFlt X Y).2 := by
  generalize hE : (roundFlt X Y).2 = e
  have hE' : e = if X * 2 ^ (-((X.log2 : Int) - Y.log2 - 53)).toNat < 2 ^ 53 * (Y * 2 ^ ((X.log2 : Int) - Y.log2 - 53).toNat)
      then (X.log2 : Int) - Y.log2 - 53 else (X.log2 : Int) - Y.log2 - 53 + 1 := by
    rw [← hE, roundFlt, if_neg (Nat.ne_of_gt hX)]
  have hR : (roundFlt X Y).1 = roundScaled X Y e := by
    rw [← hE, roundFlt, if_neg (Nat.ne_of_gt hX)]
  rw [hR]
  have h1 := round_window X Y hX hY _ e rfl hE'
  have h2 := round_window_upper X Y hY _ e rfl hE'
  obtain ⟨h3, h4, h5⟩ := roundScaled_nearest X Y e hY
  exact ⟨h1, h2, h3, h4, h5⟩

theorem nearest_bounds {X Y m : Nat} {e : Int} (hY : 0 < Y) (h : Spec.NearestDouble X Y m e) : 2 ^ 52 ≤ m ∧ m ≤ 2 ^ 53 := by
  obtain ⟨h1, h2, h3, h4, -⟩ := h
  have hd : 0 < Y * 2 ^ e.toNat := Nat.mul_pos hY (Nat.two_pow_pos _)
  generalize Y * 2 ^ e.toNat = d at *
  constructor
  · refine Decidable.byContradiction fun h => ?_
    have h6 : (m + 1) * d ≤ 2 ^ 52 * d := Nat.mul_le_mul_right _ (by omega)
    rw [Nat.succ_mul] at h6
    generalize m * d = P at *
    omega
  · refine Decidable.byContradiction fun h => ?_
    have h6 : (2 ^ 53 + 1) * d ≤ m * d := Nat.mul_le_mul_right _ (by omega)
    rw [Nat.succ_mul] at h6
    generalize m * d = P at *
    omega

/-- C38, all fractions: a non-zero decimal number of any number of digits means the nearest binary64 number of units, rounded
towards zero to whole bytes: `r <= m * 2^e * k < r + 1`. If that is `2 ^ 1024` or more, `OverflowError` is raised. -/
theorem C38_nearest (neg : Bool) (ip : List Char) (fp : Option (List Char)) (suffix : Char) (k : Nat)
    (hi : ∀ c ∈ ip, c.isDigit = true) (hf : ∀ c ∈ fp.getD [], c.isDigit = true) (hk : (suffix, k) ∈ Spec.multiplier)
    (h0 : 0 < Spec.decimal (ip ++ fp.getD [])) :
    ∃ m e r, Spec.NearestDouble (Spec.decimal (ip ++ fp.getD [])) (10 ^ (fp.getD []).length) m e ∧
      reversePretty (Spec.decimalText neg ip fp ++ [suffix]) =
        (if r < 2 ^ 1024 then .ok ((if neg then -1 else 1) * ((r : Nat) : Int)) else .error .overflowError) ∧
      r * 2 ^ (-e).toNat ≤ m * 2 ^ e.toNat * k ∧ m * 2 ^ e.toNat * k < (r + 1) * 2 ^ (-e).toNat := by
  have hne : ip ≠ [] ∨ fp.getD [] ≠ [] := by
    by_cases h : ip = []
    · right; intro h'; rw [h, h'] at h0; exact absurd h0 (by decide)
    · exact .inl h
  have hn := roundFlt_nearest (Spec.decimal (ip ++ fp.getD [])) (10 ^ (fp.getD []).length) h0 (Nat.pow_pos (by omega))
  unfold reversePretty
  rw [List.getLast?_concat, List.dropLast_concat]
  simp only [(suffixValue_spec _ _).1 hk]
  rw [pyFloat_plain _ (decimalText_plain neg ip fp hi hf), parseFloat_decimal neg ip fp hi hf hne]
  generalize roundFlt _ _ = q at hn ⊢
  obtain ⟨m, e⟩ := q
  have hp := Nat.two_pow_pos (-e).toNat
  refine ⟨m, e, if 0 ≤ e then m * 2 ^ e.toNat * k else m * k / 2 ^ (-e).toNat, hn, ?_, ?_, ?_⟩
  · have hval : Flt.truncMul ⟨neg, m, e⟩ k = (if neg then -1 else 1) *
        (((if 0 ≤ e then m * 2 ^ e.toNat * k else m * k / 2 ^ (-e).toNat) : Nat) : Int) := by
      unfold Flt.truncMul
      cases neg <;> simp
    simp only [Option.map_some, PyFloat.truncMul, hval]
    generalize (if 0 ≤ e then m * 2 ^ e.toNat * k else m * k / 2 ^ (-e).toNat) = v
    cases neg <;> simp
  · split
    · rw [show (-e).toNat = 0 by omega]; simp
    · rw [show e.toNat = 0 by omega, Nat.pow_zero, Nat.mul_one]
      exact Nat.div_mul_le_self _ _
  · split
    · rw [show (-e).toNat = 0 by omega]; simp
    · rw [show e.toNat = 0 by omega, Nat.pow_zero, Nat.mul_one]
      exact Nat.lt_mul_of_div_lt (Nat.lt_succ_self _) hp

-- 0.1K is 102 bytes: 0.1 is not a binary64 number, the nearest is a little larger
example : reversePretty ['0', '.', '1', 'K'] = .ok 102 ∧ Spec.NearestDouble 1 10 7205759403792794 (-56) :=
  ⟨by decide +kernel, by decide +kernel, by decide +kernel, by decide +kernel, by decide +kernel, by decide +kernel⟩

/-- C38: an integer below 2^53 written in decimal, followed by `B`, `K`, `M`, `G` or `T`, means exactly that many units. -/
theorem C38_integer (ds : List Char) (suffix : Char) (k : Nat) (hd : ∀ c ∈ ds, c.isDigit = true) (hne : ds ≠ [])
    (hk : (suffix, k) ∈ Spec.multiplier) (h : Spec.decimal ds < 2 ^ 53) :
    reversePretty (ds ++ [suffix]) = .ok ((Spec.decimal ds * k : Nat) : Int) := by
  have := C38_decimal false ds none suffix k (Spec.decimal ds) 0 hd (by simp) (.inl hne) hk h (by simp)
  simpa [Spec.decimalText, Spec.fractionText] using this

/-- the same, for Python's `str(n)` -/
theorem C38_str (n : Nat) (suffix : Char) (k : Nat) (hk : (suffix, k) ∈ Spec.multiplier) (h : n < 2 ^ 53) :
    reversePretty ((toString n).toList ++ [suffix]) = .ok ((n * k : Nat) : Int) := by
  have h1 : (toString n).toList = Nat.toDigits 10 n := Nat.toList_repr
  have h2 : Spec.decimal (Nat.toDigits 10 n) = n := by
    have := Nat.ofDigitChars_toDigits (b := 10) (n := n) (by omega) (by omega)
    rw [Nat.ofDigitChars_eq_foldl] at this
    exact this
  rw [h1]
  have := C38_integer (Nat.toDigits 10 n) suffix k (fun c hc => Nat.isDigit_of_mem_toDigits (by omega) (by omega) hc) Nat.toDigits_ne_nil hk
    (by rw [h2]; exact h)
  rwa [h2] at this

/-- C38: any other last character is rejected with `ValueError`. -/
theorem C38_rejected (s : List Char) (c : Char) (h : ∀ k, (c, k) ∉ Spec.multiplier) :
    reversePretty (s ++ [c]) = .error .valueError := by
  unfold reversePretty
  rw [List.getLast?_concat]
  simp only
  cases hs : suffixValue c with
  | none => rfl
  | some k => exact absurd ((suffixValue_spec c k).2 hs) (h k)

/-- C38: what `reverse_pretty` does with infinities and what is not a number: `int` cannot convert them, `OverflowError` for infinities,
`ValueError` for the others -/
theorem C38_not_finite (suffix : Char) (k : Nat) (hk : (suffix, k) ∈ Spec.multiplier) (word : List Char) :
    (word ∈ ["inf".toList, "-inf".toList, "+inf".toList, "Infinity".toList, "-Infinity".toList] →
      reversePretty (word ++ [suffix]) = .error .overflowError) ∧
    (word = "nan".toList ∨ word = "-nan".toList → reversePretty (word ++ [suffix]) = .error .valueError) := by
  unfold reversePretty
  rw [List.getLast?_concat, List.dropLast_concat]
  simp only [(suffixValue_spec _ _).1 hk]
  constructor
  · intro h
    simp only [List.mem_cons, List.not_mem_nil, or_false] at h
    rcases h with rfl | rfl | rfl | rfl | rfl <;> rfl
  · rintro (rfl | rfl) <;> rfl

theorem stripSpaces_mem {s : List Char} {c : Char} (hc : c ∈ stripSpaces s) : c ∈ s := by
  unfold stripSpaces at hc
  have := List.dropWhile_sublist isPySpace |>.subset (List.mem_reverse.1 hc)
  exact List.dropWhile_sublist isPySpace |>.subset (List.mem_reverse.1 this)

theorem dropUnderscores_no_digit : ∀ (t : List Char) (prev : Option Char), (∀ c ∈ t, c.isDigit = false) → prev.any Char.isDigit = false →
    dropUnderscores prev t = none ∨ dropUnderscores prev t = some t := by
  intro t
  induction t with
  | nil => intro prev _ _; unfold dropUnderscores; split <;> simp
  | cons c cs ih =>
    intro prev h hp
    unfold dropUnderscores
    split
    · rw [if_neg (by rw [hp]; decide)]; exact .inl rfl
    · split
      · exact .inl rfl
      · rcases ih (some c) (fun x hx => h x (List.mem_cons_of_mem _ hx)) (by simpa using h c List.mem_cons_self) with h1 | h1 <;>
          rw [h1] <;> simp

theorem takeDigits_no_digit (t : List Char) (ht : ∀ c ∈ t, c.isDigit = false) (v k : Nat) : takeDigits t v k = (v, k, t) := by
  cases t with
  | nil => rfl
  | cons c cs => rw [takeDigits, if_neg (by rw [ht c List.mem_cons_self]; decide)]

/-- text without digits is not an `int` -/
theorem pyInt_no_digit (s : List Char) (hd : ∀ c ∈ s, c.isDigit = false) : pyInt s = none := by
  unfold pyInt
  rcases dropUnderscores_no_digit (stripSpaces s) none (fun c hc => hd c (stripSpaces_mem hc)) rfl with h | h
  · rw [h]
  · rw [h]
    simp only
    rw [takeDigits_no_digit _ (fun c hc => hd c (stripSpaces_mem (takeSign_mem hc)))]
    simp

/-- C38: text that is no number at all: no digit in it, and not one of the words above -/
theorem C38_no_digit (s : List Char) (suffix : Char) (hd : ∀ c ∈ s, c.isDigit = false) (hl : ∀ c ∈ s, c.toLower ≠ 'n') :
    reversePretty (s ++ [suffix]) = .error .valueError := by
  unfold reversePretty
  rw [List.getLast?_concat, List.dropLast_concat]
  simp only
  cases hs : suffixValue suffix with
  | none => rfl
  | some k =>
    simp only
    have hp : pyFloat s = none := by
      unfold pyFloat
      rcases dropUnderscores_no_digit (stripSpaces s) none (fun c hc => hd c (stripSpaces_mem hc)) rfl with h | h
      · rw [h]
      · rw [h]
        simp only
        have hw : ∀ w : List Char, 'n' ∈ w → (takeSign (stripSpaces s)).2.map Char.toLower ≠ w := by
          rintro w hw rfl
          obtain ⟨c, hc, hcn⟩ := List.mem_map.1 hw
          exact hl c (stripSpaces_mem (takeSign_mem hc)) hcn
        rw [if_neg (fun h => h.elim (hw _ (by decide)) (hw _ (by decide))), if_neg (hw _ (by decide))]
        have ht : ∀ c ∈ (takeSign (stripSpaces s)).2, c.isDigit = false := fun c hc => hd c (stripSpaces_mem (takeSign_mem hc))
        have hf : ∀ t : List Char, (∀ c ∈ t, c.isDigit = false) → (takeFraction 0 t).2.1 = 0 := by
          intro t ht
          unfold takeFraction
          split
          · rw [takeDigits_no_digit _ (fun c hc => ht c (List.mem_cons_of_mem _ hc))]
          · rfl
        unfold parseFloat
        simp only [takeDigits_no_digit _ ht]
        rw [if_pos (by rw [hf _ ht])]
        rfl
    rw [hp]

example : reversePretty "1e999B".toList = .error .overflowError ∧ reversePretty " 1_000.5K".toList = .ok 1024512 ∧
    reversePretty "abcM".toList = .error .valueError ∧ reversePretty "1__0B".toList = .error .valueError := by decide +kernel

/-- the empty string has no last character: `IndexError` -/
theorem C38_empty : reversePretty [] = .error .indexError := rfl

example : reversePretty ['1', '.', '5', 'M'] = .ok 1572864 :=
  C38_decimal false ['1'] (some ['5']) 'M' 1048576 3 1 (by decide) (by decide) (by decide) (by decide) (by decide) (by decide)

example : reversePretty ['6', '4', 'K'] = .ok 65536 :=
  C38_integer ['6', '4'] 'K' 1024 (by decide) (by decide) (by decide) (by decide)

example : ∀ k, ('k', k) ∉ Spec.multiplier := by
  intro k h
  simp [Spec.multiplier] at h

end Bloscpack
