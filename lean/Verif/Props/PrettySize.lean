import Verif.Props.Pretty
/-
C62: printing sizes for people, and reading them back.
-/
namespace Bloscpack

/-- `k` is the largest unit that is not larger than `n` -/
def Spec.LargestUnit (n k : Nat) : Prop := k ≤ n ∧ ∀ c k', (c, k') ∈ Spec.multiplier → k < k' → n < k'

/-- dividing by a unit is exact below 2^53 -/
theorem roundHundredths_exact (n k : Nat) (h0 : 0 < n) (h : n < 2 ^ 53) (j : Nat) (hk : k = 2 ^ j) :
    2 * (roundHundredths (roundFlt n k) * k) ≤ 2 * (100 * n) + k ∧ 2 * (100 * n) ≤ 2 * (roundHundredths (roundFlt n k) * k) + k := by
  obtain ⟨p, m, hr, hn⟩ := roundFlt_value n k n j h0 (by rw [hk]; exact Nat.two_pow_pos _) h (by rw [hk])
  rw [hr]
  have h1 := roundScaled_nearest (m * 100) 1 (p : Int) (by omega)
  have e1 : (-(p : Int)).toNat = 0 := by omega
  have e2 : (p : Int).toNat = p := by omega
  obtain ⟨h2, h3, -⟩ := h1
  unfold roundHundredths
  rw [show -(-(p : Int)) = p by omega]
  generalize roundScaled (m * 100) 1 (p : Int) = q at h2 h3 ⊢
  rw [e1, e2] at h2 h3
  simp only [Nat.one_mul, Nat.pow_zero, Nat.mul_one] at h2 h3
  have hp := Nat.two_pow_pos p
  have g2 := Nat.mul_le_mul_right k h2
  have g3 := Nat.mul_le_mul_right k h3
  have t1 : (2 * (q * k)) * 2 ^ p = 2 * (q * 2 ^ p) * k := by
    ac_rfl
  have t2 : (2 * (100 * n)) * 2 ^ p = 2 * (m * 100) * k := by
    rw [Nat.mul_assoc, Nat.mul_assoc, hn]
    simp only [Nat.mul_assoc, Nat.mul_left_comm m]
  constructor
  · apply Nat.le_of_mul_le_mul_right _ hp
    rw [Nat.add_mul, t1, t2, Nat.mul_comm k, ← Nat.add_mul]
    exact g2
  · apply Nat.le_of_mul_le_mul_right _ hp
    rw [Nat.add_mul, t1, t2, Nat.mul_comm k, ← Nat.add_mul]
    exact g3

/-- the digits of a natural number -/
theorem decimal_toString (n : Nat) : Spec.decimal (toString n).toList = n ∧ (∀ c ∈ (toString n).toList, c.isDigit = true) ∧
    (toString n).toList ≠ [] := by
  have h1 : (toString n).toList = Nat.toDigits 10 n := Nat.toList_repr
  rw [h1]
  refine ⟨?_, fun c hc => Nat.isDigit_of_mem_toDigits (by omega) (by omega) hc, Nat.toDigits_ne_nil⟩
  have := Nat.ofDigitChars_toDigits (b := 10) (n := n) (by omega) (by omega)
  rw [Nat.ofDigitChars_eq_foldl] at this
  exact this

theorem digitChar_props : ∀ d < 10, (Nat.digitChar d).isDigit = true ∧ (Nat.digitChar d).toNat - 48 = d := by decide

/-- the text of a number of hundredths -/
theorem hundredthsText_spec (q : Nat) : ∃ ip fp, hundredthsText q = Spec.decimalText false ip (some fp) ∧ ip ≠ [] ∧
    (∀ c ∈ ip, c.isDigit = true) ∧ (∀ c ∈ fp, c.isDigit = true) ∧ (fp.length = 1 ∨ fp.length = 2) ∧
    Spec.decimal (ip ++ fp) * 100 = q * 10 ^ fp.length := by
  obtain ⟨h1, h2, h3⟩ := decimal_toString (q / 100)
  have g1 := digitChar_props (q % 100 / 10) (by omega)
  have g2 := digitChar_props (q % 10) (by omega)
  refine ⟨(toString (q / 100)).toList, (if q % 10 = 0 then [Nat.digitChar (q % 100 / 10)] else [Nat.digitChar (q % 100 / 10), Nat.digitChar (q % 10)]),
    rfl, h3, h2, ?_, ?_, ?_⟩
  · split
    · simpa using g1.1
    · intro c hc
      rcases List.mem_cons.1 hc with rfl | hc
      · exact g1.1
      · rw [List.mem_singleton.1 hc]; exact g2.1
  · split <;> simp
  · rw [decimal_append, h1]
    split
    · simp [g1.2]; omega
    · simp [g1.2, g2.2]; omega

theorem prettyLoop_skip (n lim : Nat) (c : Char) (r : List (Char × Nat)) (h : n < lim) : prettyLoop n ((c, lim) :: r) = prettyLoop n r := by
  rw [prettyLoop, if_pos (by omega)]

theorem prettyLoop_take (n lim : Nat) (c : Char) (r : List (Char × Nat)) (h : ¬ n < lim) :
    prettyLoop n ((c, lim) :: r) = some (hundredthsText (roundHundredths (roundFlt n lim)) ++ [c]) := by
  rw [prettyLoop, if_neg (by omega), Int.toNat_natCast]

/-- which unit is chosen -/
theorem prettySize_unit (n : Nat) (h0 : 0 < n) : ∃ suffix k j, k = 2 ^ j ∧ (suffix, k) ∈ Spec.multiplier ∧ Spec.LargestUnit n k ∧
    prettySize n = some (hundredthsText (roundHundredths (roundFlt n k)) ++ [suffix]) := by
  have key : ∀ suffix k, (suffix, k) ∈ Spec.multiplier → Spec.LargestUnit n k →
      prettyLoop n suffixesDescending = some (hundredthsText (roundHundredths (roundFlt n k)) ++ [suffix]) →
      prettySize n = some (hundredthsText (roundHundredths (roundFlt n k)) ++ [suffix]) := by
    intro s k _ _ h
    unfold prettySize
    rw [if_neg (by omega), h]
  have hl : ∀ k, k ≤ n → (∀ k' ∈ Spec.multiplier.map (·.2), k < k' → n < k') → Spec.LargestUnit n k := by
    intro k hk h
    exact ⟨hk, fun c k' hm hlt => h k' (List.mem_map.2 ⟨_, hm, rfl⟩) hlt⟩
  by_cases h4 : n < 2 ^ 40
  · by_cases h3 : n < 2 ^ 30
    · by_cases h2 : n < 2 ^ 20
      · by_cases h1 : n < 2 ^ 10
        · exact ⟨'B', 1, 0, rfl, by decide, hl 1 h0 (by simp [Spec.multiplier]; omega),
            key 'B' 1 (by decide) (hl 1 h0 (by simp [Spec.multiplier]; omega)) (by
              rw [suffixesDescending, prettyLoop_skip _ _ _ _ (by omega), prettyLoop_skip _ _ _ _ (by omega), prettyLoop_skip _ _ _ _ (by omega), prettyLoop_skip _ _ _ _ (by omega), prettyLoop_take _ _ _ _ (by omega)])⟩
        · exact ⟨'K', 1024, 10, rfl, by decide, hl _ (by omega) (by simp [Spec.multiplier]; omega),
            key 'K' 1024 (by decide) (hl _ (by omega) (by simp [Spec.multiplier]; omega)) (by
              rw [suffixesDescending, prettyLoop_skip _ _ _ _ (by omega), prettyLoop_skip _ _ _ _ (by omega), prettyLoop_skip _ _ _ _ (by omega), prettyLoop_take _ _ _ _ (by omega)])⟩
      · exact ⟨'M', 1048576, 20, rfl, by decide, hl _ (by omega) (by simp [Spec.multiplier]; omega),
          key 'M' 1048576 (by decide) (hl _ (by omega) (by simp [Spec.multiplier]; omega)) (by
              rw [suffixesDescending, prettyLoop_skip _ _ _ _ (by omega), prettyLoop_skip _ _ _ _ (by omega), prettyLoop_take _ _ _ _ (by omega)])⟩
    · exact ⟨'G', 1073741824, 30, rfl, by decide, hl _ (by omega) (by simp [Spec.multiplier]; omega),
          key 'G' 1073741824 (by decide) (hl _ (by omega) (by simp [Spec.multiplier]; omega)) (by
              rw [suffixesDescending, prettyLoop_skip _ _ _ _ (by omega), prettyLoop_take _ _ _ _ (by omega)])⟩
  · exact ⟨'T', 1099511627776, 40, rfl, by decide, hl _ (by omega) (by simp [Spec.multiplier]),
          key 'T' 1099511627776 (by decide) (hl _ (by omega) (by simp [Spec.multiplier])) (by
              rw [suffixesDescending, prettyLoop_take _ _ _ _ (by omega)])⟩

/-- C62: a size below 2^53 bytes is printed as a decimal number of the largest unit that is not larger, with one or two digits
after the point, and is off by at most half a hundredth of the unit (`N / 10^f` units: `|n - N / 10^f * k| <= k / 200`). -/
theorem C62_text (n : Nat) (h0 : 0 < n) (h : n < 2 ^ 53) :
    ∃ suffix k ip fp, (suffix, k) ∈ Spec.multiplier ∧ Spec.LargestUnit n k ∧ ip ≠ [] ∧
      (∀ c ∈ ip, c.isDigit = true) ∧ (∀ c ∈ fp, c.isDigit = true) ∧ (fp.length = 1 ∨ fp.length = 2) ∧
      prettySize n = some (Spec.decimalText false ip (some fp) ++ [suffix]) ∧
      200 * (Spec.decimal (ip ++ fp) * k) ≤ (200 * n + k) * 10 ^ fp.length ∧
      200 * n * 10 ^ fp.length ≤ 200 * (Spec.decimal (ip ++ fp) * k) + k * 10 ^ fp.length := by
  obtain ⟨suffix, k, j, hk, hm, hu, hp⟩ := prettySize_unit n h0
  obtain ⟨h1, h2⟩ := roundHundredths_exact n k h0 h j hk
  generalize roundHundredths (roundFlt n k) = q at h1 h2 hp
  obtain ⟨ip, fp, e1, e2, e3, e4, e5, e6⟩ := hundredthsText_spec q
  refine ⟨suffix, k, ip, fp, hm, hu, e2, e3, e4, e5, by rw [hp, e1], ?_, ?_⟩
  · have : 200 * (Spec.decimal (ip ++ fp) * k) = 2 * (q * k) * 10 ^ fp.length := by
      rw [show 200 * (Spec.decimal (ip ++ fp) * k) = 2 * ((Spec.decimal (ip ++ fp) * 100) * k) by
        rw [Nat.mul_right_comm _ 100 k]; generalize Spec.decimal (ip ++ fp) * k = x; omega, e6, Nat.mul_right_comm q, ← Nat.mul_assoc]
    rw [this]
    exact Nat.mul_le_mul_right _ (by omega)
  · have : 200 * (Spec.decimal (ip ++ fp) * k) = 2 * (q * k) * 10 ^ fp.length := by
      rw [show 200 * (Spec.decimal (ip ++ fp) * k) = 2 * ((Spec.decimal (ip ++ fp) * 100) * k) by
        rw [Nat.mul_right_comm _ 100 k]; generalize Spec.decimal (ip ++ fp) * k = x; omega, e6, Nat.mul_right_comm q, ← Nat.mul_assoc]
    rw [this, ← Nat.add_mul]
    exact Nat.mul_le_mul_right _ (by omega)

theorem mul_cancel3 {a b c d : Nat} (hd : 0 < d) (h : a * d ≤ b * d + c * d) : a ≤ b + c := by
  rw [← Nat.add_mul] at h
  exact Nat.le_of_mul_le_mul_right h hd

/-- C62: reading the printed text back gives the size up to half a hundredth of the unit, and three bytes (the rounding of the
decimal number to binary64, and of the result to whole bytes). -/
theorem C62_back (n : Nat) (h0 : 0 < n) (h : n < 2 ^ 53) :
    ∃ suffix k text r, (suffix, k) ∈ Spec.multiplier ∧ Spec.LargestUnit n k ∧ prettySize n = some (text ++ [suffix]) ∧
      reversePretty (text ++ [suffix]) = .ok ((r : Nat) : Int) ∧
      200 * r ≤ 200 * n + k + 600 ∧ 200 * n ≤ 200 * r + k + 600 := by
  obtain ⟨suffix, k, ip, fp, hm, hu, h1, h2, h3, h4, h5, h6, h7⟩ := C62_text n h0 h
  have hD : 0 < 10 ^ fp.length := Nat.pow_pos (by omega)
  have hk : 0 < k := by
    rcases Nat.eq_zero_or_pos k with rfl | hk
    · simp [Spec.multiplier] at hm
    · exact hk
  have hN : 0 < Spec.decimal (ip ++ fp) := by
    rcases Nat.eq_zero_or_pos (Spec.decimal (ip ++ fp)) with h8 | h8
    · rw [h8] at h7
      simp at h7
      have h9 : (200 * n) * 10 ^ fp.length ≤ k * 10 ^ fp.length := h7
      have := Nat.le_of_mul_le_mul_right h9 hD
      have := hu.1
      omega
    · exact h8
  obtain ⟨m, e, r, g1, g2, g3, g4⟩ := C38_nearest false ip (some fp) suffix k h2 h3 hm hN
  suffices hr : 200 * r ≤ 200 * n + k + 600 ∧ 200 * n ≤ 200 * r + k + 600 by
    refine ⟨suffix, k, _, r, hm, hu, h5, ?_, hr⟩
    have hkn := hu.1
    have h70 : r < 2 ^ 70 := by omega
    rw [g2, if_pos (Nat.lt_of_lt_of_le h70 (Nat.pow_le_pow_right (by omega) (by omega)))]
    simp
  have hkn := hu.1
  simp only [Option.getD_some] at g1
  have n1 := (nearest_bounds hD g1).1
  obtain ⟨-, -, n3, n4, -⟩ := g1
  generalize Spec.decimal (ip ++ fp) = N at *
  generalize 10 ^ fp.length = D at *
  have hb : 0 < 2 ^ (-e).toNat := Nat.two_pow_pos _
  have ha : 0 < 2 ^ e.toNat := Nat.two_pow_pos _
  generalize 2 ^ (-e).toNat = b at *
  generalize 2 ^ e.toNat = a at *
  -- everything times `D * b`, in the products `P = N k b`, `X = m a k D`, `u = a k D`
  have hX : 2 ^ 52 * (a * k * D) ≤ m * (a * k * D) := Nat.mul_le_mul_right _ n1
  have hXe : m * a * k * D = m * (a * k * D) := by simp only [Nat.mul_assoc]
  have hP3 : 2 * (m * (a * k * D)) ≤ 2 * (N * k * b) + a * k * D := by
    have := Nat.mul_le_mul_right k n3
    rw [Nat.add_mul] at this
    calc 2 * (m * (a * k * D)) = 2 * (m * (D * a)) * k := by ac_rfl
      _ ≤ _ := this
      _ = _ := by ac_rfl
  have hP4 : 2 * (N * k * b) ≤ 2 * (m * (a * k * D)) + a * k * D := by
    have := Nat.mul_le_mul_right k n4
    rw [Nat.add_mul] at this
    calc 2 * (N * k * b) = 2 * (N * b) * k := by ac_rfl
      _ ≤ _ := this
      _ = _ := by
        rw [show D * a * k = a * k * D by ac_rfl]
        congr 1
        ac_rfl
  have hr1 : r * (b * D) ≤ m * (a * k * D) := by
    rw [← hXe, ← Nat.mul_assoc]; exact Nat.mul_le_mul_right _ g3
  have hr2 : m * (a * k * D) ≤ (r + 1) * (b * D) := by
    rw [← hXe, ← Nat.mul_assoc]; exact Nat.mul_le_mul_right _ (Nat.le_of_lt g4)
  have h6' : 200 * (N * k * b) ≤ (200 * n + k) * (b * D) := by
    have := Nat.mul_le_mul_right b h6
    calc _ = 200 * (N * k) * b := by simp only [Nat.mul_assoc]
      _ ≤ _ := this
      _ = _ := by ac_rfl
  have h7' : 200 * n * (b * D) ≤ 200 * (N * k * b) + k * (b * D) := by
    have := Nat.mul_le_mul_right b h7
    rw [Nat.add_mul] at this
    calc _ = 200 * n * D * b := by ac_rfl
      _ ≤ _ := this
      _ = _ := by ac_rfl
  have hbD : 0 < b * D := Nat.mul_pos hb hD
  clear hXe n3 n4 g2 g3 g4 h6 h7
  generalize a * k * D = u at *
  generalize N * k * b = P at *
  generalize b * D = w at *
  generalize m * u = X at *
  constructor
  · -- 200 (2^53 - 1) r w ≤ 2^53 (200 n + k) w
    have e1 : (200 * (2 ^ 53 - 1) * r) * w ≤ (2 ^ 53 * (200 * n + k)) * w := by
      have e2 : (200 * (2 ^ 53 - 1) * r) * w = 200 * (2 ^ 53 - 1) * (r * w) := Nat.mul_assoc _ _ _
      have e3 : (2 ^ 53 * (200 * n + k)) * w = 2 ^ 53 * ((200 * n + k) * w) := Nat.mul_assoc _ _ _
      rw [e2, e3]
      generalize r * w = y at *
      generalize (200 * n + k) * w = z at *
      omega
    have := Nat.le_of_mul_le_mul_right e1 hbD
    omega
  · have e1 : (200 * 2 ^ 53 * n) * w ≤ (200 * (2 ^ 53 + 1) * (r + 1)) * w + (2 ^ 53 * k) * w := by
      have e2 : (200 * 2 ^ 53 * n) * w = 2 ^ 53 * (200 * n * w) := by
        rw [Nat.mul_right_comm 200, Nat.mul_comm (200 * n), Nat.mul_assoc]
      have e3 : (200 * (2 ^ 53 + 1) * (r + 1)) * w = 200 * (2 ^ 53 + 1) * ((r + 1) * w) := Nat.mul_assoc _ _ _
      have e4 : (2 ^ 53 * k) * w = 2 ^ 53 * (k * w) := Nat.mul_assoc _ _ _
      rw [e2, e3, e4]
      generalize (r + 1) * w = y at *
      generalize 200 * n * w = z at *
      generalize k * w = v at *
      omega
    have := mul_cancel3 hbD e1
    have hr : r < 2 ^ 55 ∨ 2 ^ 55 ≤ r := by omega
    rcases hr with hr | hr <;> omega

/-- C62: sizes that are a whole number of hundredths of their unit, among them all whole multiples and all sizes below 1024
bytes, are recovered exactly. -/
theorem C62_exact (n k : Nat) (c : Char) (h0 : 0 < n) (h : n < 2 ^ 53) (hc : (c, k) ∈ Spec.multiplier) (hu : Spec.LargestUnit n k)
    (hd : k ∣ 100 * n) : ∃ text, prettySize n = some text ∧ reversePretty text = .ok (n : Int) := by
  obtain ⟨suffix, k', j, hk, hm, hu', hp⟩ := prettySize_unit n h0
  have hkk : k' = k := by
    rcases Nat.lt_trichotomy k' k with h1 | h1 | h1
    · have := hu'.2 _ _ hc h1; have := hu.1; omega
    · exact h1
    · have := hu.2 _ _ hm h1; have := hu'.1; omega
  subst hkk
  obtain ⟨h1, h2⟩ := roundHundredths_exact n k' h0 h j hk
  generalize roundHundredths (roundFlt n k') = q at h1 h2 hp
  obtain ⟨t, ht⟩ := hd
  have hkpos : 0 < k' := by rw [hk]; exact Nat.two_pow_pos _
  have hqt : q = t := by
    rw [ht, Nat.mul_comm k' t] at h1 h2
    rcases Nat.lt_trichotomy q t with h3 | h3 | h3
    · have : (q + 1) * k' ≤ t * k' := Nat.mul_le_mul_right _ h3
      rw [Nat.succ_mul] at this
      generalize q * k' = x at *
      generalize t * k' = y at *
      omega
    · exact h3
    · have : (t + 1) * k' ≤ q * k' := Nat.mul_le_mul_right _ h3
      rw [Nat.succ_mul] at this
      generalize q * k' = x at *
      generalize t * k' = y at *
      omega
  subst hqt
  obtain ⟨ip, fp, e1, e2, e3, e4, e5, e6⟩ := hundredthsText_spec q
  refine ⟨_, hp, ?_⟩
  have hN : Spec.decimal (ip ++ fp) * k' = n * 10 ^ fp.length := by
    have : (Spec.decimal (ip ++ fp) * k') * 100 = (n * 10 ^ fp.length) * 100 := by
      rw [Nat.mul_right_comm, e6, Nat.mul_right_comm, Nat.mul_comm q k', ← ht, Nat.mul_right_comm n, Nat.mul_comm n 100]
    omega
  have := C38_decimal false ip (some fp) suffix k' n j e3 e4 (.inl e2) hm h (by rw [← hk]; exact hN)
  rw [e1, this]
  simp only [Option.getD_some]
  rw [hN, Nat.mul_div_cancel _ (Nat.pow_pos (by omega))]
  simp

/-- C62: zero; and negative sizes, for which there is no text -/
theorem C62_other : prettySize 0 = some ['0', 'B'] ∧ reversePretty ['0', 'B'] = .ok 0 ∧ ∀ n : Int, n < 0 → prettySize n = none := by
  refine ⟨rfl, by decide +kernel, fun n hn => ?_⟩
  unfold prettySize
  rw [if_neg (by omega)]
  simp only [suffixesDescending, prettyLoop]
  rw [if_pos (by omega), if_pos (by omega), if_pos (by omega), if_pos (by omega), if_pos (by omega)]

/-- C62: the text with both sizes contains the exact number of bytes, in a form that `reverse_pretty` reads. -/
theorem C62_double (n : Nat) (h : n < 2 ^ 53) : ∃ text digits, prettySize n = some text ∧
    doublePrettySize n = text ++ [' ', '('] ++ (digits ++ ['B']) ++ [')'] ∧ reversePretty (digits ++ ['B']) = .ok (n : Int) := by
  obtain ⟨text, ht⟩ : ∃ text, prettySize n = some text := by
    rcases Nat.eq_zero_or_pos n with rfl | h0
    · exact ⟨_, rfl⟩
    · obtain ⟨_, _, _, _, _, _, h1⟩ := prettySize_unit n h0
      exact ⟨_, h1⟩
  refine ⟨text, (toString n).toList, ht, ?_, ?_⟩
  · unfold doublePrettySize
    rw [ht, show (toString (n : Int)) = toString n from rfl]
    simp
  · have := C38_str n 'B' 1 (by decide) h
    simpa using this

-- a size that is a whole number of hundredths of its unit, and one that is not
example : Spec.LargestUnit 1536 1024 ∧ 1024 ∣ 100 * 1536 ∧ prettySize 1536 = some ['1', '.', '5', 'K'] := by
  refine ⟨⟨by omega, by simp [Spec.multiplier]; omega⟩, by omega, by decide +kernel⟩
example : prettySize 1000 = some ['1', '0', '0', '0', '.', '0', 'B'] := by decide +kernel
example : prettySize 123456789 = some ['1', '1', '7', '.', '7', '4', 'M'] ∧ reversePretty ['1', '1', '7', '.', '7', '4', 'M'] = .ok 123459338 := by decide +kernel
example : prettySize 1048575 = some ['1', '0', '2', '4', '.', '0', 'K'] := by decide +kernel
example : doublePrettySize 1048576 = "1.0M (1048576B)".toList := by decide +kernel

end Bloscpack
