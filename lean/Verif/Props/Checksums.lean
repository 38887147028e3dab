import Verif.Lemmas.Checksums
/-
C47: checksum digests.
-/
namespace Bloscpack

variable {μ : Type}

/-- C47: exactly the documented names are known, and the digest of any data has the documented size (for the hashlib
functions this is the assumption on hashlib). -/
theorem C47_digest_sizes (E : Env μ) (L : E.Laws) (name : String) :
    (name ∈ Spec.checksumNames → ∃ h, checksumLookup E.hashlib name = .ok h ∧ h.size = Spec.digestSize name ∧
      ∀ data, (h.function data).length = Spec.digestSize name) ∧
    (name ∉ Spec.checksumNames → checksumLookup E.hashlib name = .error .keyError ∧
      checkValidChecksum name = .error .noSuchChecksum) := by
  constructor
  · intro hn
    obtain ⟨h, h1, h2, h3⟩ := checksumLookup_of (hl := E.hashlib) hn
    exact ⟨h, h1, h3, fun d => by rw [← h3]; exact Hash.size_eq L (checksumLookup_mem h1).1 d⟩
  · intro hn
    constructor
    · cases hc : checksumLookup E.hashlib name with
      | error e =>
        unfold checksumLookup at hc
        split at hc
        · cases hc
        · cases hc; rfl
      | ok h =>
        exfalso; apply hn
        obtain ⟨h1, rfl⟩ := checksumLookup_mem hc
        simp only [checksums, List.mem_cons, List.not_mem_nil, or_false] at h1
        rcases h1 with rfl | rfl | rfl | rfl | rfl | rfl | rfl | rfl | rfl <;> simp [Spec.checksumNames]
    · unfold checkValidChecksum
      rw [if_neg]; exact hn

/-- the sum of the bytes -/
def Spec.byteSum : Bytes → Nat
  | [] => 0
  | x :: xs => x.toNat + Spec.byteSum xs

/-- the sum of the bytes, each multiplied with its distance from the end (the last byte counts once) -/
def Spec.weightedSum : Bytes → Nat
  | [] => 0
  | x :: xs => (xs.length + 1) * x.toNat + Spec.weightedSum xs

theorem adlerFold_eq (d : Bytes) (a b : Nat) (ha : a < 65521) (hb : b < 65521) : d.foldl adlerStep (a, b) =
    ((a + Spec.byteSum d) % 65521, (b + d.length * a + Spec.weightedSum d) % 65521) := by
  induction d generalizing a b with
  | nil => simp [Spec.byteSum, Spec.weightedSum, Nat.mod_eq_of_lt ha, Nat.mod_eq_of_lt hb]
  | cons x xs ih =>
    rw [List.foldl_cons, adlerStep, ih _ _ (Nat.mod_lt _ (by decide)) (Nat.mod_lt _ (by decide))]
    simp only [Spec.byteSum, Spec.weightedSum, List.length_cons, Prod.mk.injEq]
    constructor
    · omega
    · have h1 : (xs.length * ((a + x.toNat) % 65521)) % 65521 = (xs.length * (a + x.toNat)) % 65521 := by
        rw [Nat.mul_mod, Nat.mod_mod, ← Nat.mul_mod]
      rw [Nat.mul_add] at h1
      have h2 : (xs.length + 1) * a = xs.length * a + a := by rw [Nat.add_mul, Nat.one_mul]
      have h3 : (xs.length + 1) * x.toNat = xs.length * x.toNat + x.toNat := by rw [Nat.add_mul, Nat.one_mul]
      rw [h2, h3]
      omega

/-- C47: the adler32 digest of any data is the little-endian form of `B·2^16 + A`, where `A` is one plus the sum of the
bytes and `B` the sum of the successive values of `A`, both modulo 65521 (RFC 1950). -/
theorem C47_adler32 (hl : String → Bytes → Bytes) (data : Bytes) : ∃ h, checksumLookup hl "adler32" = .ok h ∧
    h.function data = Spec.leBytes 4 (((data.length + Spec.weightedSum data) % 65521 * 65536 +
      (1 + Spec.byteSum data) % 65521 : Nat)) := by
  refine ⟨_, rfl, ?_⟩
  show zlibHash adler32 data = _
  unfold zlibHash
  rw [Nat.mod_eq_of_lt (adler32_lt data)]
  unfold adler32
  rw [adlerFold_eq _ _ _ (by decide) (by decide)]
  simp only [Nat.zero_add, Nat.mul_one]
  have key : ∀ v : Nat, v < 2 ^ 32 → leEncode 4 v = Spec.leBytes 4 (v : Int) := by
    intro v hv
    have h1 := packUnsigned_of (w := 4) (v := (v : Int)) (by omega) (by omega)
    exact ((packUnsigned_iff 4 v _).1 h1).2.2
  apply key
  omega

-- the digest of b"Wikipedia" is 0x11E60398, and a check that `B` is the sum of the successive `A`s
example : adler32 [87, 105, 107, 105, 112, 101, 100, 105, 97] = 0x11E60398 := by decide
-- the standard check value of crc32
example : crc32 [49, 50, 51, 52, 53, 54, 55, 56, 57] = 0xCBF43926 := by decide +kernel

/-- C21, the checksums: two byte strings that differ in exactly one byte have different adler32 and crc32 digests. -/
theorem C21_digest_differs (hl : String → Bytes → Bytes) (name : String) (hn : name = "adler32" ∨ name = "crc32")
    (A B : Bytes) (x y : UInt8) (hxy : x ≠ y) : ∃ h, checksumLookup hl name = .ok h ∧
    h.function (A ++ x :: B) ≠ h.function (A ++ y :: B) := by
  obtain ⟨h, hh, -⟩ := checksumLookup_of (hl := hl) (name := name) (by rcases hn with rfl | rfl <;> decide)
  exact ⟨h, hh, fun he => hxy (zlib_digest_byte hn hh A B x y he)⟩

end Bloscpack
