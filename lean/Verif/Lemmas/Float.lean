import Verif.Spec.Float
/-!
Rounding decimal numbers to binary64.
-/
namespace Bloscpack

theorem binary64_iff (b v : Nat) : Spec.Binary64 b v ↔ v = scaled b := by
  unfold Spec.Binary64 scaled
  constructor
  · rintro ⟨e, f, hf, rfl, h⟩
    have h1 : (e * 2 ^ 52 + f) / 2 ^ 52 = e := by omega
    have h2 : (e * 2 ^ 52 + f) % 2 ^ 52 = f := by omega
    rw [h1, h2]
    rcases h with ⟨rfl, rfl⟩ | ⟨he, rfl⟩
    · rw [if_pos rfl]
    · rw [if_neg (by omega)]
  · intro h
    refine ⟨b / 2 ^ 52, b % 2 ^ 52, Nat.mod_lt _ (by decide), by omega, ?_⟩
    by_cases he : b / 2 ^ 52 = 0
    · rw [if_pos he] at h
      exact .inl ⟨he, h⟩
    · rw [if_neg he] at h
      exact .inr ⟨by omega, h⟩

theorem scaled_succ (b : Nat) : scaled b < scaled (b + 1) := by
  unfold scaled
  by_cases hf : b % 2 ^ 52 + 1 < 2 ^ 52
  · have h1 : (b + 1) / 2 ^ 52 = b / 2 ^ 52 := by omega
    have h2 : (b + 1) % 2 ^ 52 = b % 2 ^ 52 + 1 := by omega
    rw [h1, h2]
    split
    · omega
    · exact Nat.mul_lt_mul_of_pos_right (by omega) (Nat.pow_pos (by decide))
  · have h1 : (b + 1) / 2 ^ 52 = b / 2 ^ 52 + 1 := by omega
    have h2 : (b + 1) % 2 ^ 52 = 0 := by omega
    have h3 : b % 2 ^ 52 = 2 ^ 52 - 1 := by omega
    rw [h1, h2, h3]
    by_cases he : b / 2 ^ 52 = 0
    · rw [he]
      decide
    · rw [if_neg he, if_neg (Nat.succ_ne_zero _)]
      obtain ⟨k, hk⟩ : ∃ k, b / 2 ^ 52 = k + 1 := ⟨b / 2 ^ 52 - 1, by omega⟩
      rw [hk, Nat.add_sub_cancel, Nat.add_sub_cancel, Nat.pow_succ, Nat.add_zero]
      have : (2 ^ 52 + (2 ^ 52 - 1)) * 2 ^ k < (2 ^ 52 * 2) * 2 ^ k :=
        Nat.mul_lt_mul_of_pos_right (by decide) (Nat.pow_pos (by decide))
      calc _ < (2 ^ 52 * 2) * 2 ^ k := this
        _ = 2 ^ 52 * (2 ^ k * 2) := by rw [Nat.mul_assoc, Nat.mul_comm 2]

theorem scaled_lt {a b : Nat} (h : a < b) : scaled a < scaled b := by
  induction b with
  | zero => omega
  | succ b ih =>
    rcases Nat.lt_or_ge a b with h1 | h1
    · exact Nat.lt_trans (ih h1) (scaled_succ b)
    · have : a = b := by omega
      subst this
      exact scaled_succ a

theorem scaled_le {a b : Nat} (h : a ≤ b) : scaled a ≤ scaled b := by
  rcases Nat.lt_or_ge a b with h1 | h1
  · exact Nat.le_of_lt (scaled_lt h1)
  · have : a = b := by omega
    rw [this]; exact Nat.le_refl _

theorem floorBits_spec (num den : Nat) : ∀ (i b : Nat), b ≤ 2047 * 2 ^ 52 → scaled b * den ≤ num * 2 ^ 1074 →
    b ≤ floorBits num den i b ∧ floorBits num den i b ≤ 2047 * 2 ^ 52 ∧ scaled (floorBits num den i b) * den ≤ num * 2 ^ 1074 ∧
    ∀ b', b' ≤ 2047 * 2 ^ 52 → b' < b + 2 ^ i → scaled b' * den ≤ num * 2 ^ 1074 → b' ≤ floorBits num den i b := by
  intro i
  induction i with
  | zero =>
    intro b h1 h2
    refine ⟨Nat.le_refl _, h1, h2, fun b' _ h3 _ => ?_⟩
    simp only [floorBits]
    omega
  | succ i ih =>
    intro b h1 h2
    rw [floorBits]
    have hp : 2 ^ (i + 1) = 2 ^ i + 2 ^ i := by rw [Nat.pow_succ]; omega
    by_cases hc : b + 2 ^ i ≤ 2047 * 2 ^ 52 ∧ scaled (b + 2 ^ i) * den ≤ num * 2 ^ 1074
    · rw [if_pos hc]
      obtain ⟨g1, g2, g3, g4⟩ := ih (b + 2 ^ i) hc.1 hc.2
      refine ⟨Nat.le_trans (Nat.le_add_right _ _) g1, g2, g3, fun b' h3 h4 h5 => ?_⟩
      exact g4 b' h3 (by omega) h5
    · rw [if_neg hc]
      obtain ⟨g1, g2, g3, g4⟩ := ih b h1 h2
      refine ⟨g1, g2, g3, fun b' h3 h4 h5 => g4 b' h3 ?_ h5⟩
      apply Nat.lt_of_not_le
      intro hle
      apply hc
      exact ⟨by omega, Nat.le_trans (Nat.mul_le_mul_right _ (scaled_le hle)) h5⟩

/-- what the search finds: the bits below, and unless they are infinity, the next ones are above -/
theorem floorBits_at (num den : Nat) :
    floorBits num den 63 0 ≤ 2047 * 2 ^ 52 ∧ scaled (floorBits num den 63 0) * den ≤ num * 2 ^ 1074 ∧
    (floorBits num den 63 0 ≠ 2047 * 2 ^ 52 → num * 2 ^ 1074 < scaled (floorBits num den 63 0 + 1) * den) := by
  have h0 : scaled 0 = 0 := by decide
  obtain ⟨-, g2, g3, g4⟩ := floorBits_spec num den 63 0 (by omega) (by rw [h0]; omega)
  refine ⟨g2, g3, fun hne => Nat.lt_of_not_le fun hle => ?_⟩
  have := g4 (floorBits num den 63 0 + 1) (by omega) (by omega) hle
  omega

theorem roundBits_le (num den : Nat) : roundBits num den ≤ 2047 * 2 ^ 52 := by
  obtain ⟨h1, -, -⟩ := floorBits_at num den
  unfold roundBits
  simp only
  split
  · exact h1
  · split
    · exact h1
    · split
      · omega
      · split <;> omega

theorem roundBits_nearest (num den : Nat) (hden : 0 < den) : Spec.Nearest num den (roundBits num den) := by
  obtain ⟨h1, h2, h3⟩ := floorBits_at num den
  refine ⟨roundBits_le num den, _, (binary64_iff _ _).2 rfl, fun b' v' hb' hne hv' => ?_⟩
  rw [(binary64_iff _ _).1 hv']
  unfold roundBits at hne ⊢
  simp only at hne ⊢
  generalize floorBits num den 63 0 = b at *
  generalize num * 2 ^ 1074 = X at *
  have mono : ∀ x y, x < y → scaled x * den < scaled y * den := fun x y h => Nat.mul_lt_mul_of_pos_right (scaled_lt h) hden
  have mono' : ∀ x y, x ≤ y → scaled x * den ≤ scaled y * den := fun x y h => Nat.mul_le_mul_right _ (scaled_le h)
  by_cases hb : b = 2047 * 2 ^ 52
  · rw [if_pos hb] at hne ⊢
    have := mono b' b (by omega)
    omega
  · rw [if_neg hb] at hne ⊢
    have h4 := h3 hb
    by_cases hlo : X - scaled b * den < scaled (b + 1) * den - X
    · rw [if_pos hlo] at hne ⊢
      rcases Nat.lt_or_ge b' b with hx | hx
      · have := mono b' b hx; omega
      · have := mono' (b + 1) b' (by omega); omega
    · rw [if_neg hlo] at hne ⊢
      by_cases hhi : scaled (b + 1) * den - X < X - scaled b * den
      · rw [if_pos hhi] at hne ⊢
        rcases Nat.lt_or_ge (b + 1) b' with hx | hx
        · have := mono (b + 1) b' hx; omega
        · have := mono' b' b (by omega); omega
      · rw [if_neg hhi] at hne ⊢
        by_cases he : b % 2 = 0
        · rw [if_pos he] at hne ⊢
          rcases Nat.lt_or_ge b' b with hx | hx
          · have := mono b' b hx; omega
          · have := mono' (b + 1) b' (by omega); omega
        · rw [if_neg he] at hne ⊢
          rcases Nat.lt_or_ge (b + 1) b' with hx | hx
          · have := mono (b + 1) b' hx; omega
          · have := mono' b' b (by omega); omega

/-- there is one nearest number only -/
theorem nearestBits_unique {num den b c : Nat} (hden : 0 < den) (hb : Spec.Nearest num den b) (hc : Spec.Nearest num den c) : b = c := by
  have mono : ∀ x y, x < y → scaled x * den < scaled y * den := fun x y h => Nat.mul_lt_mul_of_pos_right (scaled_lt h) hden
  have key : ∀ b c, b < c → Spec.Nearest num den b → Spec.Nearest num den c → False := by
    rintro b c hlt ⟨hb1, vb, hvb, hb2⟩ ⟨hc1, vc, hvc, hc2⟩
    have e1 := hb2 c vc hc1 (by omega) hvc
    have e2 := hc2 b vb hb1 (by omega) hvb
    have e3 := hb2 (b + 1) (scaled (b + 1)) (by omega) (by omega) ((binary64_iff _ _).2 rfl)
    rw [(binary64_iff _ _).1 hvb] at e1 e2 e3
    rw [(binary64_iff _ _).1 hvc] at e1 e2
    have m1 := mono b (b + 1) (by omega)
    have m2 : b + 1 = c ∨ scaled (b + 1) * den < scaled c * den := by
      rcases Nat.lt_or_ge (b + 1) c with h | h
      · exact .inr (mono _ _ h)
      · exact .inl (by omega)
    generalize num * 2 ^ 1074 = X at *
    rcases m2 with rfl | m2 <;> omega
  rcases Nat.lt_trichotomy b c with h | h | h
  · exact (key b c h hb hc).elim
  · exact h
  · exact (key c b h hc hb).elim

theorem doubleOf_iff (neg : Bool) (m : Nat) (x : Int) (d : Double) : doubleOf neg m x = d ↔ Spec.IsFloat neg m x d := by
  have hv : (Fin.ofNat (2047 * 2 ^ 52 + 1) (roundBits (m * 10 ^ x.toNat) (10 ^ (-x).toNat))).val =
      roundBits (m * 10 ^ x.toNat) (10 ^ (-x).toNat) := Nat.mod_eq_of_lt (Nat.lt_succ_of_le (roundBits_le _ _))
  have hn := roundBits_nearest (m * 10 ^ x.toNat) (10 ^ (-x).toNat) (Nat.pow_pos (by decide))
  unfold doubleOf
  constructor
  · rintro rfl
    refine ⟨_, rfl, ?_⟩
    rw [hv]
    exact hn
  · rintro ⟨b, rfl, hb⟩
    have := nearestBits_unique (Nat.pow_pos (by decide)) hn hb
    have e : Fin.ofNat (2047 * 2 ^ 52 + 1) (roundBits (m * 10 ^ x.toNat) (10 ^ (-x).toNat)) = b := Fin.ext (by rw [hv, this])
    rw [e]

/-- a number is nearest to itself -/
theorem nearest_exact (b : Nat) (hb : b ≤ 2047 * 2 ^ 52) : Spec.Nearest (scaled b * 5 ^ 1074) (10 ^ 1074) b := by
  refine ⟨hb, _, (binary64_iff _ _).2 rfl, fun b' v' hb' hne hv' => .inl ?_⟩
  rw [(binary64_iff _ _).1 hv']
  have h10 : ∀ k, scaled b * 5 ^ k * 2 ^ k = scaled b * 10 ^ k := by
    intro k
    rw [Nat.mul_assoc, ← Nat.mul_pow]
  rw [h10]
  have hpos : 0 < 10 ^ 1074 := Nat.pow_pos (by decide)
  generalize 10 ^ 1074 = p at *
  have hne' : scaled b' * p ≠ scaled b * p := by
    intro h
    have := Nat.eq_of_mul_eq_mul_right hpos h
    rcases Nat.lt_trichotomy b b' with h1 | h1 | h1
    · have := scaled_lt h1; omega
    · exact hne h1.symm
    · have := scaled_lt h1; omega
  omega

end Bloscpack
