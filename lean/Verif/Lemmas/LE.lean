import Verif.Lemmas.Prim
import Verif.Spec.Bytes
/-
The model's `struct` packing is the specified little-endian format.
-/
namespace Bloscpack

theorem leEncode_eq (w v : Nat) : leEncode w v = (List.range w).map (fun i => UInt8.ofNat (v / 256 ^ i % 256)) := by
  induction w generalizing v with
  | zero => rfl
  | succ n ih =>
    rw [leEncode, ih, List.range_succ_eq_map]
    simp only [List.map_cons, Nat.pow_zero, Nat.div_one, List.map_map]
    congr 1
    apply List.map_congr_left
    intro i _
    simp only [Function.comp]
    rw [Nat.div_div_eq_div_mul, Nat.pow_succ, Nat.mul_comm]

theorem emod_pow_digit (v : Int) (w i : Nat) (h : i < w) :
    (v % 256 ^ w) / 256 ^ i % 256 = v / 256 ^ i % 256 := by
  obtain ⟨d, rfl⟩ : ∃ d, w = i + 1 + d := ⟨w - i - 1, by omega⟩
  have hv : v = v % 256 ^ (i + 1 + d) + 256 ^ (i + 1 + d) * (v / 256 ^ (i + 1 + d)) := by
    rw [Int.emod_add_mul_ediv]
  generalize hr : v % 256 ^ (i + 1 + d) = r at *
  generalize v / 256 ^ (i + 1 + d) = q at *
  subst hv
  have e : (256 : Int) ^ (i + 1 + d) * q = 256 ^ i * (256 * (256 ^ d * q)) := by
    rw [Int.pow_add, Int.pow_succ]; simp only [Int.mul_assoc]
  rw [e, Int.add_mul_ediv_left _ _ (by have := pow_pos' i; omega)]
  omega

theorem leEncode_emod (w : Nat) (v : Int) : leEncode w (v % 256 ^ w).toNat = Spec.leBytes w v := by
  rw [leEncode_eq]
  unfold Spec.leBytes
  apply List.map_congr_left
  intro i hi
  rw [List.mem_range] at hi
  have hp := pow_pos' w
  have h0 : 0 ≤ v % 256 ^ w := Int.emod_nonneg _ (by omega)
  rw [← emod_pow_digit v w i hi]
  generalize v % 256 ^ w = u at h0
  obtain ⟨n, rfl⟩ := Int.eq_ofNat_of_zero_le h0
  have : ((n : Int) / 256 ^ i % 256) = ((n / 256 ^ i % 256 : Nat) : Int) := by
    rw [Int.natCast_emod, Int.natCast_ediv, natCast_pow256]; rfl
  rw [this]; rfl

theorem leEncode_unsigned (w : Nat) (v : Int) (h0 : 0 ≤ v) (h1 : v < 256 ^ w) :
    leEncode w v.toNat = Spec.leBytes w v := by
  rw [← leEncode_emod, Int.emod_eq_of_lt h0 h1]

theorem leBytes_length (w : Nat) (v : Int) : (Spec.leBytes w v).length = w := by simp [Spec.leBytes]

theorem packUnsigned_iff (w : Nat) (v : Int) (b : Bytes) :
    packUnsigned w v = .ok b ↔ 0 ≤ v ∧ v < 256 ^ w ∧ b = Spec.leBytes w v := by
  constructor
  · intro h
    obtain ⟨h0, h1, rfl⟩ := packUnsigned_ok h
    exact ⟨h0, h1, leEncode_unsigned _ _ h0 h1⟩
  · rintro ⟨h0, h1, rfl⟩
    rw [packUnsigned_of h0 h1, leEncode_unsigned _ _ h0 h1]

theorem packSigned_iff (w : Nat) (v : Int) (b : Bytes) :
    packSigned w v = .ok b ↔ -(256 ^ w / 2) ≤ v ∧ v < 256 ^ w / 2 ∧ b = Spec.leBytes w v := by
  constructor
  · intro h
    obtain ⟨h0, h1, rfl⟩ := packSigned_ok h
    exact ⟨h0, h1, leEncode_emod _ _⟩
  · rintro ⟨h0, h1, rfl⟩
    rw [packSigned_of h0 h1, leEncode_emod]

end Bloscpack
