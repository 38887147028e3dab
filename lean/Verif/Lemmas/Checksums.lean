import Verif.Model.Env
import Verif.Spec.Header
import Verif.Lemmas.LE
/-
The checksums: sizes, and injectivity of adler32 and crc32 in every single byte.
-/
namespace Bloscpack

/-! ### lookup -/

variable {μ : Type}

theorem checksumLookup_mem {hl : String → Bytes → Bytes} {name : String} {h : Hash}
    (hh : checksumLookup hl name = .ok h) : h ∈ checksums hl ∧ h.name = name := by
  unfold checksumLookup at hh
  split at hh
  · rename_i h' hf
    cases hh
    exact ⟨List.mem_of_find?_eq_some hf, by simpa using List.find?_some hf⟩
  · cases hh

theorem checksumLookup_of {hl : String → Bytes → Bytes} {name : String} (hn : name ∈ Spec.checksumNames) :
    ∃ h, checksumLookup hl name = .ok h ∧ h.name = name ∧ h.size = Spec.digestSize name := by
  simp only [Spec.checksumNames, List.mem_cons, List.not_mem_nil, or_false] at hn
  rcases hn with rfl | rfl | rfl | rfl | rfl | rfl | rfl | rfl | rfl <;> exact ⟨_, rfl, rfl, rfl⟩

theorem Hash.size_eq {E : Env μ} (L : E.Laws) {h : Hash} (hh : h ∈ checksums E.hashlib) (d : Bytes) :
    (h.function d).length = h.size := by
  simp only [checksums, List.mem_cons, List.not_mem_nil, or_false] at hh
  rcases hh with rfl | rfl | rfl | rfl | rfl | rfl | rfl | rfl | rfl
  · rfl
  · simp [zlibHash]
  · simp [zlibHash]
  all_goals exact L.hashlib_length _ _ _ rfl

/-- the empty-digest checksum is exactly `None` -/
theorem Hash.size_zero {hl : String → Bytes → Bytes} {h : Hash} (hh : h ∈ checksums hl) : h.size = 0 ↔ h.name = "None" := by
  simp only [checksums, List.mem_cons, List.not_mem_nil, or_false] at hh
  rcases hh with rfl | rfl | rfl | rfl | rfl | rfl | rfl | rfl | rfl <;> simp

/-! ### adler32 -/

theorem adlerStep_inj {s t : Nat × Nat} {x : UInt8} (hs : s.1 < 65521 ∧ s.2 < 65521) (ht : t.1 < 65521 ∧ t.2 < 65521)
    (h : adlerStep s x = adlerStep t x) : s = t := by
  have hx := x.toNat_lt
  obtain ⟨s1, s2⟩ := s
  obtain ⟨t1, t2⟩ := t
  simp only [adlerStep, Prod.mk.injEq] at h hs ht ⊢
  omega

theorem adlerStep_lt (s : Nat × Nat) (x : UInt8) : (adlerStep s x).1 < 65521 ∧ (adlerStep s x).2 < 65521 := by
  simp only [adlerStep]; omega

theorem adlerStep_byte {s : Nat × Nat} {x y : UInt8} (h : adlerStep s x = adlerStep s y) : x = y := by
  have hx := x.toNat_lt
  have hy := y.toNat_lt
  simp only [adlerStep, Prod.mk.injEq] at h
  apply UInt8.toNat.inj
  omega

theorem adlerFold_lt (l : Bytes) {s : Nat × Nat} (hs : s.1 < 65521 ∧ s.2 < 65521) :
    (l.foldl adlerStep s).1 < 65521 ∧ (l.foldl adlerStep s).2 < 65521 := by
  induction l generalizing s with
  | nil => exact hs
  | cons x xs ih => exact ih (adlerStep_lt s x)

theorem adlerFold_inj (l : Bytes) {s t : Nat × Nat} (hs : s.1 < 65521 ∧ s.2 < 65521) (ht : t.1 < 65521 ∧ t.2 < 65521)
    (h : l.foldl adlerStep s = l.foldl adlerStep t) : s = t := by
  induction l generalizing s t with
  | nil => exact h
  | cons x xs ih => exact adlerStep_inj hs ht (ih (adlerStep_lt s x) (adlerStep_lt t x) h)

theorem adler32_lt (d : Bytes) : adler32 d < 2 ^ 32 := by
  have := adlerFold_lt d (s := (1, 0)) (by decide)
  simp only [adler32]; omega

theorem adler32_byte (A B : Bytes) (x y : UInt8) (h : adler32 (A ++ x :: B) = adler32 (A ++ y :: B)) : x = y := by
  have hA := adlerFold_lt A (s := (1, 0)) (by decide)
  simp only [adler32, List.foldl_append, List.foldl_cons] at h
  have h1 := adlerFold_lt B (adlerStep_lt (A.foldl adlerStep (1, 0)) x)
  have h2 := adlerFold_lt B (adlerStep_lt (A.foldl adlerStep (1, 0)) y)
  have : List.foldl adlerStep (adlerStep (A.foldl adlerStep (1, 0)) x) B =
      List.foldl adlerStep (adlerStep (A.foldl adlerStep (1, 0)) y) B := by
    apply Prod.ext <;> omega
  exact adlerStep_byte (adlerFold_inj B (adlerStep_lt _ _) (adlerStep_lt _ _) this)

/-! ### crc32 -/

theorem crcBit_msb (c : BitVec 32) : (crcBit c).getLsbD 31 = c.getLsbD 0 := by
  unfold crcBit
  have h1 : (c >>> 1).getLsbD 31 = false := by simp
  have h2 : (0xEDB88320#32).getLsbD 31 = true := by decide
  split
  · rename_i h
    rw [BitVec.getLsbD_xor, h1, h2, h]; rfl
  · rename_i h
    rw [h1]; simpa using h

theorem crcBit_inj {c d : BitVec 32} (h : crcBit c = crcBit d) : c = d := by
  have h0 : c.getLsbD 0 = d.getLsbD 0 := by rw [← crcBit_msb, ← crcBit_msb, h]
  have h1 : c >>> 1 = d >>> 1 := by
    unfold crcBit at h
    rw [h0] at h
    split at h
    · have := congrArg (· ^^^ 0xEDB88320#32) h
      simpa [BitVec.xor_assoc] using this
    · exact h
  apply BitVec.eq_of_getLsbD_eq
  intro i hi
  cases i with
  | zero => exact h0
  | succ i =>
    have := congrArg (fun v => BitVec.getLsbD v i) h1
    simpa [BitVec.getLsbD_ushiftRight, Nat.add_comm] using this

theorem crcByte_inj {c d : BitVec 32} {x : UInt8} (h : crcByte c x = crcByte d x) : c = d := by
  have := crcBit_inj (crcBit_inj (crcBit_inj (crcBit_inj (crcBit_inj (crcBit_inj (crcBit_inj (crcBit_inj h)))))))
  have := congrArg (· ^^^ x.toBitVec.setWidth 32) this
  simpa [BitVec.xor_assoc] using this

theorem crcByte_byte {c : BitVec 32} {x y : UInt8} (h : crcByte c x = crcByte c y) : x = y := by
  have := crcBit_inj (crcBit_inj (crcBit_inj (crcBit_inj (crcBit_inj (crcBit_inj (crcBit_inj (crcBit_inj h)))))))
  have := congrArg (c ^^^ ·) this
  simp only [← BitVec.xor_assoc, BitVec.xor_self, BitVec.zero_xor] at this
  have := congrArg BitVec.toNat this
  simp only [BitVec.toNat_setWidth] at this
  have hx := x.toNat_lt
  have hy := y.toNat_lt
  apply UInt8.toNat.inj
  simp only [UInt8.toNat_toBitVec] at this
  omega

theorem crcFold_inj (l : Bytes) {c d : BitVec 32} (h : l.foldl crcByte c = l.foldl crcByte d) : c = d := by
  induction l generalizing c d with
  | nil => exact h
  | cons x xs ih => exact crcByte_inj (ih h)

theorem crc32_lt (d : Bytes) : crc32 d < 2 ^ 32 := BitVec.isLt _

theorem crc32_byte (A B : Bytes) (x y : UInt8) (h : crc32 (A ++ x :: B) = crc32 (A ++ y :: B)) : x = y := by
  simp only [crc32] at h
  have h := BitVec.eq_of_toNat_eq h
  have h := congrArg (· ^^^ 0xFFFFFFFF#32) h
  simp only [BitVec.xor_assoc, BitVec.xor_self, BitVec.xor_zero, List.foldl_append, List.foldl_cons] at h
  exact crcByte_byte (crcFold_inj B h)

theorem leEncode_inj {w a b : Nat} (ha : a < 256 ^ w) (hb : b < 256 ^ w) (h : leEncode w a = leEncode w b) : a = b := by
  rw [← leDecode_leEncode w a ha, ← leDecode_leEncode w b hb, h]

/-- the two zlib digests differ whenever exactly one byte differs -/
theorem zlib_digest_byte {hl : String → Bytes → Bytes} {name : String} {h : Hash} (hn : name = "adler32" ∨ name = "crc32")
    (hh : checksumLookup hl name = .ok h) (A B : Bytes) (x y : UInt8)
    (heq : h.function (A ++ x :: B) = h.function (A ++ y :: B)) : x = y := by
  rcases hn with rfl | rfl
  · cases hh
    have := leEncode_inj (Nat.mod_lt _ (by decide)) (Nat.mod_lt _ (by decide)) heq
    rw [Nat.mod_eq_of_lt (adler32_lt _), Nat.mod_eq_of_lt (adler32_lt _)] at this
    exact adler32_byte A B x y this
  · cases hh
    have := leEncode_inj (Nat.mod_lt _ (by decide)) (Nat.mod_lt _ (by decide)) heq
    rw [Nat.mod_eq_of_lt (crc32_lt _), Nat.mod_eq_of_lt (crc32_lt _)] at this
    exact crc32_byte A B x y this

end Bloscpack
