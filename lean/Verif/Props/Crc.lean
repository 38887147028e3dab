import Mathlib.Algebra.Polynomial.Div
import Mathlib.Algebra.Polynomial.RingDivision
import Mathlib.Data.ZMod.Basic
import Mathlib.Algebra.CharP.Two
import Mathlib.Tactic.ComputeDegree
import Mathlib.Tactic.LinearCombination
import Mathlib.RingTheory.Ideal.Quotient.Operations
import Verif.Lemmas.Checksums
/-
C47, crc32: the digest is the standard cyclic redundancy check, stated with polynomials over the field with two elements.
-/
namespace Bloscpack

open Polynomial

namespace Spec

/-- the generator polynomial of CRC-32 (ISO 3309, ITU-T V.42) -/
noncomputable def crcGenerator : (ZMod 2)[X] :=
  X ^ 32 + X ^ 26 + X ^ 23 + X ^ 22 + X ^ 16 + X ^ 12 + X ^ 11 + X ^ 10 + X ^ 8 + X ^ 7 + X ^ 5 + X ^ 4 + X ^ 2 + X + 1

/-- the polynomial with the given coefficients, that of the highest power first -/
noncomputable def bitPoly (l : List Bool) : (ZMod 2)[X] := l.foldl (fun p b => p * X + (if b then 1 else 0)) 0

/-- the bits of a message: the least significant bit of a byte goes first -/
def messageBits (data : Bytes) : List Bool := data.flatMap (fun b => (List.range 8).map (fun i => b.toNat.testBit i))

/-- ITU-T V.42, 8.1.1.6.2: the remainder of `X^32 M(X) + X^k (X^31 + … + X + 1)` divided by the generator, where `M` is the
polynomial of the `k` message bits -/
noncomputable def crcRemainder (data : Bytes) : (ZMod 2)[X] :=
  (X ^ 32 * bitPoly (messageBits data) + X ^ (messageBits data).length * ∑ i ∈ Finset.range 32, X ^ i) %ₘ crcGenerator

end Spec

open Spec

theorem bitPoly_snoc (l : List Bool) (b : Bool) : bitPoly (l ++ [b]) = bitPoly l * X + (if b then 1 else 0) := by
  simp [bitPoly]

theorem bitPoly_append (l m : List Bool) : bitPoly (l ++ m) = bitPoly l * X ^ m.length + bitPoly m := by
  induction m using List.reverseRecOn with
  | nil => simp [bitPoly]
  | append_singleton m b ih =>
    rw [← List.append_assoc, bitPoly_snoc, ih, bitPoly_snoc, List.length_append, List.length_singleton, pow_succ]
    ring

theorem bitPoly_falses (n : Nat) : bitPoly (List.replicate n false) = 0 := by
  induction n with
  | zero => rfl
  | succ n ih => rw [List.replicate_succ', bitPoly_snoc, ih]; simp

theorem bitPoly_xor (l m : List Bool) (h : l.length = m.length) :
    bitPoly (List.zipWith xor l m) = bitPoly l + bitPoly m := by
  induction l using List.reverseRecOn generalizing m with
  | nil =>
    cases m with
    | nil => simp [bitPoly]
    | cons _ _ => simp at h
  | append_singleton l b ih =>
    rcases List.eq_nil_or_concat m with rfl | ⟨m, c, rfl⟩
    · simp at h
    · simp only [List.concat_eq_append, List.length_append, List.length_singleton, Nat.add_right_cancel_iff] at h
      rw [List.concat_eq_append, List.zipWith_append h, List.zipWith_cons_cons, List.zipWith_nil_left, bitPoly_snoc, bitPoly_snoc, bitPoly_snoc, ih m h]
      have h2 : (1 : (ZMod 2)[X]) + 1 = 0 := CharTwo.add_self_eq_zero 1
      cases b <;> cases c <;> simp
      · ring
      · ring
      · ring
      · linear_combination -h2

theorem coeff_bitPoly (l : List Bool) (i : Nat) :
    (bitPoly l).coeff i = if i < l.length then (if l.getD (l.length - 1 - i) false then 1 else 0) else 0 := by
  induction l using List.reverseRecOn generalizing i with
  | nil => simp [bitPoly]
  | append_singleton l b ih =>
    rw [bitPoly_snoc, coeff_add]
    cases i with
    | zero => cases b <;> simp
    | succ i =>
      rw [coeff_mul_X, ih]
      have : (if b then (1 : (ZMod 2)[X]) else 0).coeff (i + 1) = 0 := by cases b <;> simp [coeff_one]
      rw [this, add_zero]
      simp only [List.length_append, List.length_singleton, Nat.add_lt_add_iff_right]
      by_cases hi : i < l.length
      · rw [if_pos hi, if_pos hi]
        have e : l.length + 1 - 1 - (i + 1) = l.length - 1 - i := by omega
        rw [e, List.getD_eq_getElem?_getD, List.getD_eq_getElem?_getD, List.getElem?_append_left (by omega)]
      · rw [if_neg hi, if_neg hi]

/-- the bits of a register, least significant first -/
def regBits (c : BitVec 32) : List Bool := (List.range 32).map c.getLsbD

theorem regBits_length (c : BitVec 32) : (regBits c).length = 32 := by simp [regBits]

theorem regBits_xor (c d : BitVec 32) : regBits (c ^^^ d) = List.zipWith xor (regBits c) (regBits d) := by
  apply List.ext_getElem
  · simp [regBits]
  · intro i h1 h2
    simp [regBits]

theorem regBits_shift (c : BitVec 32) : regBits (c >>> 1) = (regBits c).tail ++ [false] := by
  apply List.ext_getElem
  · simp [regBits]
  · intro i h1 h2
    simp only [regBits, List.length_map, List.length_range] at h1
    by_cases hi : i < 31
    · rw [List.getElem_append_left (by simp [regBits]; omega)]
      simp [regBits, Nat.add_comm]
    · rw [List.getElem_append_right (by simp [regBits]; omega)]
      have : i = 31 := by omega
      subst this
      simp [regBits]

theorem regBits_head (c : BitVec 32) : regBits c = c.getLsbD 0 :: (regBits c).tail := by
  simp [regBits, List.range_succ_eq_map]

noncomputable def modG : (ZMod 2)[X] →+* (ZMod 2)[X] ⧸ Ideal.span {crcGenerator} := Ideal.Quotient.mk _

theorem bitPoly_generator : bitPoly (regBits 0xEDB88320#32) + X ^ 32 = crcGenerator := by
  have e : regBits 0xEDB88320#32 = [false, false, false, false, false, true, false, false, true, true, false, false, false, false, false, true,
    false, false, false, true, true, true, false, true, true, false, true, true, false, true, true, true] := by decide
  rw [e]
  simp only [bitPoly, List.foldl_cons, List.foldl_nil, crcGenerator]
  simp only [if_true, Bool.false_eq_true, if_false]
  ring

theorem modG_crcBit (c : BitVec 32) : modG (bitPoly (regBits (crcBit c))) = modG (X * bitPoly (regBits c)) := by
  have hs : X * bitPoly (regBits c) = bitPoly ([c.getLsbD 0] ++ (regBits (c >>> 1))) := by
    rw [regBits_shift, ← List.append_assoc, bitPoly_snoc]
    conv_lhs => rw [regBits_head c]
    simp only [List.singleton_append, Bool.false_eq_true, if_false, add_zero]
    rw [mul_comm]
  rw [hs, bitPoly_append, regBits_length]
  unfold crcBit
  cases hb : c.getLsbD 0 with
  | false => simp [bitPoly]
  | true =>
    rw [if_pos rfl, regBits_xor, bitPoly_xor _ _ (by simp [regBits])]
    have h1 : bitPoly [true] = 1 := by simp [bitPoly]
    rw [h1, one_mul]
    have hg : modG crcGenerator = 0 := by
      rw [modG, Ideal.Quotient.eq_zero_iff_mem]
      exact Ideal.subset_span rfl
    have hg := (congrArg modG bitPoly_generator).trans hg
    rw [map_add] at hg
    have h2 : modG (X ^ 32) + modG (X ^ 32) = 0 := by
      rw [← map_add, CharTwo.add_self_eq_zero, map_zero]
    rw [map_add, map_add]
    linear_combination hg - h2

theorem regBits_byte (b : UInt8) : regBits (b.toBitVec.setWidth 32) =
    (List.range 8).map (fun i => b.toNat.testBit i) ++ List.replicate 24 false := by
  apply List.ext_getElem
  · simp [regBits]
  · intro i h1 h2
    simp only [regBits, List.length_map, List.length_range] at h1
    by_cases hi : i < 8
    · rw [List.getElem_append_left (by simpa using hi)]
      simp [regBits, h1, hi, BitVec.getLsbD]
    · rw [List.getElem_append_right (by simpa using hi)]
      simp only [regBits, List.getElem_map, List.getElem_range, BitVec.getLsbD_setWidth, List.getElem_replicate]
      rw [BitVec.getLsbD_of_ge _ _ (by omega)]
      simp

theorem modG_crcByte (c : BitVec 32) (b : UInt8) : modG (bitPoly (regBits (crcByte c b))) =
    modG (X ^ 8 * bitPoly (regBits c) + X ^ 32 * bitPoly ((List.range 8).map (fun i => b.toNat.testBit i))) := by
  have step : ∀ (c : BitVec 32), modG (bitPoly (regBits (crcBit c))) = modG X * modG (bitPoly (regBits c)) := fun c => by
    rw [modG_crcBit, map_mul]
  simp only [crcByte, step]
  rw [regBits_xor, bitPoly_xor _ _ (by simp [regBits]), regBits_byte, bitPoly_append, bitPoly_falses]
  simp only [map_add, map_mul, map_pow, List.length_replicate, map_zero]
  ring

theorem modG_crcFold (data : Bytes) (c : BitVec 32) : modG (bitPoly (regBits (data.foldl crcByte c))) =
    modG (X ^ 32 * bitPoly (messageBits data) + X ^ (messageBits data).length * bitPoly (regBits c)) := by
  induction data generalizing c with
  | nil => simp [messageBits, bitPoly]
  | cons b bs ih =>
    rw [List.foldl_cons, ih, map_add, map_mul, map_mul, modG_crcByte]
    have e : messageBits (b :: bs) = (List.range 8).map (fun i => b.toNat.testBit i) ++ messageBits bs := rfl
    rw [e, bitPoly_append]
    simp only [map_add, map_mul, map_pow, List.length_append, List.length_map, List.length_range, pow_add]
    ring

theorem crcGenerator_degree : crcGenerator.degree = 32 := by
  unfold crcGenerator
  compute_degree!

theorem crcGenerator_monic : crcGenerator.Monic := by
  unfold crcGenerator
  monicity!

theorem bitPoly_ones : bitPoly (regBits 0xFFFFFFFF#32) = ∑ i ∈ Finset.range 32, X ^ i := by
  have e : regBits 0xFFFFFFFF#32 = List.replicate 32 true := by decide
  rw [e]
  have h : ∀ n, bitPoly (List.replicate n true) = ∑ i ∈ Finset.range n, X ^ i := by
    intro n
    induction n with
    | zero => simp [bitPoly]
    | succ n ih =>
      rw [List.replicate_succ', bitPoly_snoc, ih, Finset.sum_range_succ', Finset.sum_mul]
      simp [pow_succ]
  exact h 32

theorem bitPoly_degree_lt (l : List Bool) : (bitPoly l).degree < l.length := by
  rw [degree_lt_iff_coeff_zero]
  intro m hm
  rw [coeff_bitPoly, if_neg (by omega)]

theorem crcFold_remainder (data : Bytes) : bitPoly (regBits (data.foldl crcByte 0xFFFFFFFF#32)) = crcRemainder data := by
  have h := modG_crcFold data 0xFFFFFFFF#32
  rw [bitPoly_ones, modG, Ideal.Quotient.eq, Ideal.mem_span_singleton] at h
  have hd := bitPoly_degree_lt (regBits (data.foldl crcByte 0xFFFFFFFF#32))
  rw [regBits_length] at hd
  rw [crcRemainder, ← modByMonic_eq_of_dvd_sub crcGenerator_monic h,
    (modByMonic_eq_self_iff crcGenerator_monic).mpr (by rw [crcGenerator_degree]; exact hd)]

/-- C47: the crc32 digest of any data is the little-endian form of a 32-bit number whose bit `i` is the complement of the
coefficient of `X^(31-i)` of the remainder. -/
theorem C47_crc32 (hl : String → Bytes → Bytes) (data : Bytes) : ∃ h v, checksumLookup hl "crc32" = .ok h ∧ v < 2 ^ 32 ∧
    h.function data = leEncode 4 v ∧ ∀ i < 32, (v.testBit i = true ↔ (crcRemainder data).coeff (31 - i) = 0) := by
  refine ⟨⟨"crc32", 4, zlibHash crc32⟩, crc32 data, rfl, BitVec.isLt _, ?_, ?_⟩
  · show leEncode 4 (crc32 data % 2 ^ 32) = _
    have h : crc32 data < 2 ^ 32 := BitVec.isLt _
    rw [Nat.mod_eq_of_lt h]
  · intro i hi
    have e : (crc32 data).testBit i = ((data.foldl crcByte 0xFFFFFFFF#32) ^^^ 0xFFFFFFFF#32).getLsbD i := rfl
    rw [e, BitVec.getLsbD_xor, ← crcFold_remainder, coeff_bitPoly, regBits_length, if_pos (by omega)]
    have h1 : (0xFFFFFFFF#32).getLsbD i = true := by
      have : ∀ j : Fin 32, (0xFFFFFFFF#32).getLsbD j.val = true := by decide
      exact this ⟨i, hi⟩
    have h2 : (regBits (data.foldl crcByte 0xFFFFFFFF#32)).getD (32 - 1 - (31 - i)) false = (data.foldl crcByte 0xFFFFFFFF#32).getLsbD i := by
      have : 32 - 1 - (31 - i) = i := by omega
      rw [this]
      simp [regBits, hi, List.getD_eq_getElem?_getD]
    rw [h1, h2]
    cases (data.foldl crcByte 0xFFFFFFFF#32).getLsbD i <;> simp

-- the standard check value of crc32
example : crc32 [49, 50, 51, 52, 53, 54, 55, 56, 57] = 0xCBF43926 := by decide +kernel

end Bloscpack
