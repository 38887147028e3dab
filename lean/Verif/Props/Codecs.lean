import Verif.Model.Headers
import Verif.Lemmas.LE
/-
C07: integer field codecs.
-/
namespace Bloscpack

/-- C07, encoding: succeeds exactly on the representable range, and gives the little-endian (two's complement)
bytes; anything else raises `struct.error`. -/
theorem C07_encode_uint8 (v : Int) : encodeUInt8 v =
    if 0 ≤ v ∧ v ≤ 255 then .ok (Spec.leBytes 1 v) else .error .structError := by
  split
  · exact (packUnsigned_iff 1 v _).2 ⟨by omega, by omega, rfl⟩
  · unfold encodeUInt8 packUnsigned; rw [if_neg]; omega

theorem C07_encode_uint32 (v : Int) : encodeUInt32 v =
    if 0 ≤ v ∧ v ≤ 2 ^ 32 - 1 then .ok (Spec.leBytes 4 v) else .error .structError := by
  split
  · exact (packUnsigned_iff 4 v _).2 ⟨by omega, by omega, rfl⟩
  · unfold encodeUInt32 packUnsigned; rw [if_neg]; omega

theorem C07_encode_int32 (v : Int) : encodeInt32 v =
    if -2 ^ 31 ≤ v ∧ v ≤ 2 ^ 31 - 1 then .ok (Spec.leBytes 4 v) else .error .structError := by
  split
  · exact (packSigned_iff 4 v _).2 ⟨by omega, by omega, rfl⟩
  · unfold encodeInt32 packSigned; rw [if_neg]; omega

theorem C07_encode_int64 (v : Int) : encodeInt64 v =
    if -2 ^ 63 ≤ v ∧ v ≤ 2 ^ 63 - 1 then .ok (Spec.leBytes 8 v) else .error .structError := by
  split
  · exact (packSigned_iff 8 v _).2 ⟨by omega, by omega, rfl⟩
  · unfold encodeInt64 packSigned; rw [if_neg]; omega

/-- C07, bijection: decoding `b` gives `v` exactly when encoding `v` gives `b`; so decode ∘ encode and
encode ∘ decode are identities. -/
theorem C07_decode_uint8 (v : Int) (x : UInt8) : decodeUInt8 x = v ↔ encodeUInt8 v = .ok [x] := by
  have key : encodeUInt8 (decodeUInt8 x) = .ok [x] := by
    have hx := x.toNat_lt
    unfold encodeUInt8 decodeUInt8
    rw [packUnsigned_of (by omega) (by omega)]
    simp [leEncode]
  constructor
  · rintro rfl; exact key
  · intro h
    have h1 := unpackUnsigned_pack h
    have h2 := unpackUnsigned_pack key
    rw [h1] at h2; exact (Except.ok.inj h2).symm

theorem C07_decode_uint32 (v : Int) (b : Bytes) : decodeUInt32 b = .ok v ↔ encodeUInt32 v = .ok b :=
  ⟨packUnsigned_unpack, unpackUnsigned_pack⟩

theorem C07_decode_int32 (v : Int) (b : Bytes) : decodeInt32 b = .ok v ↔ encodeInt32 v = .ok b :=
  ⟨packSigned_unpack (by decide), unpackSigned_pack (by decide)⟩

theorem C07_decode_int64 (v : Int) (b : Bytes) : decodeInt64 b = .ok v ↔ encodeInt64 v = .ok b :=
  ⟨packSigned_unpack (by decide), unpackSigned_pack (by decide)⟩

/-- C07, totality: every byte string of the field width decodes, every other one is rejected. -/
theorem C07_decode_total (b : Bytes) :
    (b.length = 4 → ∃ v, decodeUInt32 b = .ok v) ∧ (b.length ≠ 4 → decodeUInt32 b = .error .structError) ∧
    (b.length = 4 → ∃ v, decodeInt32 b = .ok v) ∧ (b.length ≠ 4 → decodeInt32 b = .error .structError) ∧
    (b.length = 8 → ∃ v, decodeInt64 b = .ok v) ∧ (b.length ≠ 8 → decodeInt64 b = .error .structError) := by
  simp +contextual [decodeUInt32, decodeInt32, decodeInt64, unpackUnsigned, unpackSigned]

-- non-vacuity: the codecs on concrete values, including extremes
example : encodeInt64 (-1) = .ok [255, 255, 255, 255, 255, 255, 255, 255] := by decide
example : encodeInt32 (-2 ^ 31) = .ok [0, 0, 0, 128] ∧ decodeInt32 [0, 0, 0, 128] = .ok (-2 ^ 31) := by decide
example : encodeUInt32 (2 ^ 32) = .error .structError := by decide
example : encodeInt64 0x0102030405060708 = .ok [8, 7, 6, 5, 4, 3, 2, 1] := by decide

end Bloscpack
