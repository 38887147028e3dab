import Mathlib.RingTheory.Coprime.Basic
import Mathlib.RingTheory.Polynomial.Basic
import Mathlib.Tactic.NormNum.Prime
import Mathlib.Data.Nat.Prime.Basic
import Verif.Props.Crc
import Verif.Props.Checksums
import Verif.Props.Damage
/-
C57: which larger errors the two zlib checksums always detect.
-/
namespace Bloscpack
variable {μ : Type}

namespace Spec

/-- two messages that differ at most within 32 consecutive bits (the least significant bit of a byte goes first) -/
def Burst (x y : Bytes) : Prop :=
  ∃ P u v S, messageBits x = P ++ u ++ S ∧ messageBits y = P ++ v ++ S ∧ u.length = v.length ∧ u.length ≤ 32

/-- two messages that differ at most in two bytes, whose distance is not a multiple of 65521 -/
def TwoBytes (x y : Bytes) : Prop :=
  ∃ A b B c C b' c', x = A ++ b :: (B ++ c :: C) ∧ y = A ++ b' :: (B ++ c' :: C) ∧ (B.length + 1) % 65521 ≠ 0

end Spec

open Polynomial Spec

/-! ### crc32 -/

theorem messageBits_append (x y : Bytes) : messageBits (x ++ y) = messageBits x ++ messageBits y := by
  simp [messageBits]

theorem messageBits_length (x : Bytes) : (messageBits x).length = 8 * x.length := by
  induction x with
  | nil => rfl
  | cons b bs ih =>
    have : messageBits (b :: bs) = (List.range 8).map (fun i => b.toNat.testBit i) ++ messageBits bs := rfl
    rw [this, List.length_append, ih]; simp; omega

theorem byteBits_inj {b c : UInt8} (h : (List.range 8).map (fun i => b.toNat.testBit i) = (List.range 8).map (fun i => c.toNat.testBit i)) :
    b = c := by
  apply UInt8.toNat_inj.1
  apply Nat.eq_of_testBit_eq
  intro i
  by_cases hi : i < 8
  · have := congrArg (fun l => l[i]?) h
    simpa [hi] using this
  · have h1 : ∀ x : UInt8, x.toNat.testBit i = false := fun x => Nat.testBit_lt_two_pow (Nat.lt_of_lt_of_le x.toNat_lt (Nat.pow_le_pow_right (by omega) (by omega)))
    rw [h1, h1]

theorem messageBits_inj {x y : Bytes} (h : messageBits x = messageBits y) : x = y := by
  have hlen : x.length = y.length := by
    have := congrArg List.length h
    rw [messageBits_length, messageBits_length] at this; omega
  induction x generalizing y with
  | nil => cases y with | nil => rfl | cons _ _ => cases hlen
  | cons b bs ih =>
    cases y with
    | nil => cases hlen
    | cons c cs =>
      have h1 : ∀ b bs, messageBits (b :: bs) = (List.range 8).map (fun i => b.toNat.testBit i) ++ messageBits bs := fun _ _ => rfl
      rw [h1, h1] at h
      obtain ⟨h2, h3⟩ := List.append_inj h (by simp)
      rw [byteBits_inj h2, ih h3 (by simpa using hlen)]

/-- messages that differ within four consecutive bytes differ within 32 consecutive bits -/
theorem Spec.Burst.bytes (A x y B : Bytes) (h : x.length = y.length) (h4 : x.length ≤ 4) : Burst (A ++ x ++ B) (A ++ y ++ B) :=
  ⟨messageBits A, messageBits x, messageBits y, messageBits B, by rw [messageBits_append, messageBits_append],
    by rw [messageBits_append, messageBits_append], by rw [messageBits_length, messageBits_length, h],
    by rw [messageBits_length]; omega⟩

theorem bitPoly_inj {l m : List Bool} (hlen : l.length = m.length) (h : bitPoly l = bitPoly m) : l = m := by
  apply List.ext_getElem hlen
  intro i h1 h2
  have hc := congrArg (fun p : (ZMod 2)[X] => p.coeff (l.length - 1 - i)) h
  beta_reduce at hc
  rw [coeff_bitPoly, coeff_bitPoly, if_pos (show l.length - 1 - i < l.length by omega), if_pos (show l.length - 1 - i < m.length by omega)] at hc
  have e1 : l.length - 1 - (l.length - 1 - i) = i := by omega
  have e2 : m.length - 1 - (l.length - 1 - i) = i := by omega
  rw [e1, e2, List.getD_eq_getElem?_getD, List.getD_eq_getElem?_getD, List.getElem?_eq_getElem h1, List.getElem?_eq_getElem h2] at hc
  simp only [Option.getD_some] at hc
  revert hc
  cases l[i] <;> cases m[i] <;> simp

theorem crcGenerator_coprime_X : IsCoprime crcGenerator (X : (ZMod 2)[X]) := by
  refine ⟨1, -(X ^ 31 + X ^ 25 + X ^ 22 + X ^ 21 + X ^ 15 + X ^ 11 + X ^ 10 + X ^ 9 + X ^ 7 + X ^ 6 + X ^ 4 + X ^ 3 + X + 1), ?_⟩
  unfold crcGenerator
  ring

theorem crcFold_of_crc32 {x y : Bytes} (h : crc32 x = crc32 y) : x.foldl crcByte 0xFFFFFFFF#32 = y.foldl crcByte 0xFFFFFFFF#32 := by
  unfold crc32 at h
  have := BitVec.eq_of_toNat_eq h
  have h2 := congrArg (· ^^^ 0xFFFFFFFF#32) this
  simpa [BitVec.xor_assoc] using h2

/-- crc32 tells apart any two messages that differ within 32 consecutive bits -/
theorem crc32_burst {x y : Bytes} (hb : Burst x y) (h : crc32 x = crc32 y) : x = y := by
  obtain ⟨P, u, v, S, hx, hy, hlen, h32⟩ := hb
  have h1 := crcFold_remainder x
  rw [crcFold_of_crc32 h, crcFold_remainder y] at h1
  unfold crcRemainder at h1
  have hl : (messageBits x).length = (messageBits y).length := by rw [hx, hy]; simp [hlen]
  rw [← hl] at h1
  have h2 : crcGenerator ∣ (X ^ 32 * bitPoly (messageBits y) + X ^ (messageBits x).length * ∑ i ∈ Finset.range 32, X ^ i) -
      (X ^ 32 * bitPoly (messageBits x) + X ^ (messageBits x).length * ∑ i ∈ Finset.range 32, X ^ i) := by
    rw [← modByMonic_eq_zero_iff_dvd crcGenerator_monic, sub_modByMonic, h1, sub_self]
  have h3 : (X ^ 32 * bitPoly (messageBits y) + X ^ (messageBits x).length * ∑ i ∈ Finset.range 32, X ^ i) -
      (X ^ 32 * bitPoly (messageBits x) + X ^ (messageBits x).length * ∑ i ∈ Finset.range 32, X ^ i) =
      X ^ (32 + S.length) * (bitPoly v - bitPoly u) := by
    rw [hx, hy, bitPoly_append, bitPoly_append, bitPoly_append, bitPoly_append, hlen]
    ring
  rw [h3] at h2
  have h4 : crcGenerator ∣ bitPoly v - bitPoly u := (crcGenerator_coprime_X.pow_right).dvd_of_dvd_mul_left h2
  have hdeg : (bitPoly v - bitPoly u).degree < crcGenerator.degree := by
    rw [crcGenerator_degree]
    refine lt_of_le_of_lt (degree_sub_le _ _) (max_lt ?_ ?_)
    · refine lt_of_lt_of_le (bitPoly_degree_lt v) ?_
      rw [← hlen]; exact_mod_cast h32
    · exact lt_of_lt_of_le (bitPoly_degree_lt u) (by exact_mod_cast h32)
  have h5 : bitPoly v - bitPoly u = 0 := by
    rw [← (modByMonic_eq_self_iff crcGenerator_monic).2 hdeg]
    exact (modByMonic_eq_zero_iff_dvd crcGenerator_monic).2 h4
  have h6 := bitPoly_inj hlen (sub_eq_zero.1 h5).symm
  exact messageBits_inj (by rw [hx, hy, h6])

/-! ### adler32 -/

theorem byteSum_append (x y : Bytes) : byteSum (x ++ y) = byteSum x + byteSum y := by
  induction x with
  | nil => simp [byteSum]
  | cons b bs ih => simp only [List.cons_append, byteSum, ih]; omega

theorem weightedSum_append (x y : Bytes) : weightedSum (x ++ y) = weightedSum x + y.length * byteSum x + weightedSum y := by
  induction x with
  | nil => simp [byteSum, weightedSum]
  | cons b bs ih =>
    simp only [List.cons_append, weightedSum, byteSum, ih, List.length_append]
    ring

theorem adler32_two {x y : Bytes} (hb : TwoBytes x y) (h : adler32 x = adler32 y) : x = y := by
  obtain ⟨A, b, B, c, C, b', c', rfl, rfl, hm⟩ := hb
  unfold adler32 at h
  rw [adlerFold_eq _ _ _ (by decide) (by decide), adlerFold_eq _ _ _ (by decide) (by decide)] at h
  simp only [Nat.zero_add, Nat.mul_one] at h
  have hb := b.toNat_lt; have hb' := b'.toNat_lt; have hc := c.toNat_lt; have hc' := c'.toNat_lt
  have h1 : (1 + byteSum (A ++ b :: (B ++ c :: C))) % 65521 = (1 + byteSum (A ++ b' :: (B ++ c' :: C))) % 65521 := by omega
  have h2 : ((A ++ b :: (B ++ c :: C)).length + weightedSum (A ++ b :: (B ++ c :: C))) % 65521 =
      ((A ++ b' :: (B ++ c' :: C)).length + weightedSum (A ++ b' :: (B ++ c' :: C))) % 65521 := by omega
  clear h
  simp only [byteSum_append, byteSum] at h1
  have hs : b.toNat + c.toNat = b'.toNat + c'.toNat := by omega
  simp only [weightedSum_append, weightedSum, byteSum, byteSum_append, List.length_append, List.length_cons] at h2
  have hp : Nat.Prime 65521 := by norm_num
  have hcop : IsCoprime (65521 : ℤ) ((B.length + 1 : ℕ) : ℤ) := by
    have : Nat.Coprime 65521 (B.length + 1) := (hp.coprime_iff_not_dvd).2 (fun hd => hm (Nat.mod_eq_zero_of_dvd hd))
    exact_mod_cast Nat.isCoprime_iff_coprime.2 this
  have hd := (Nat.modEq_iff_dvd).1 (show Nat.ModEq 65521 _ _ from h2)
  have hc2 : (c'.toNat : ℤ) = b.toNat + c.toNat - b'.toNat := by omega
  push_cast at hd
  rw [hc2] at hd
  have h3 : (65521 : ℤ) ∣ ((B.length + 1 : ℕ) : ℤ) * ((b'.toNat : ℤ) - b.toNat) := by
    have e : ∀ P Q : ℤ, Q = P → (65521 : ℤ) ∣ P → (65521 : ℤ) ∣ Q := fun _ _ h h' => h ▸ h'
    refine e _ _ ?_ hd
    push_cast
    ring
  have h4 := hcop.dvd_of_dvd_mul_left h3
  have h5 : b.toNat = b'.toNat := by omega
  have h6 : c.toNat = c'.toNat := by omega
  rw [UInt8.toNat_inj.1 h5, UInt8.toNat_inj.1 h6]

/-! ### files -/

/-- what happens when a chunk and its digest are replaced by others of the same lengths, the chunk's length field being kept:
unless the digest is right unpacking raises, having output the data before -/
theorem replaced_chunk (E : Env μ) (L : E.Laws) (data : Bytes) (cs : ChunkSizeArg) (md : Option μ) (a : BloscArgs)
    (b : BloscpackArgs) (m : MetadataArgs) (out : Bytes) (h : packBytesToBytes E data cs md a b m = .ok out) (hb : b.checksum ≠ "None") :
    ∃ n c l digest front chunks, calculateNchunks data.length cs = .ok (n, c, l) ∧
      (checksumLookup E.hashlib b.checksum).map Hash.function = .ok digest ∧
      Spec.Layout E out data c.toNat a digest front chunks ∧ (chunks.length : Int) = n ∧
      ∀ i (hi : i < chunks.length) (c' dg' : Bytes), c'.length = chunks[i].length → slice c' 12 16 = slice chunks[i] 12 16 →
        dg'.length = (digest chunks[i]).length → dg' ≠ digest c' →
        unpackFrom E (out.take (Spec.Layout.start digest front chunks i) ++ (c' ++ dg') ++
            out.drop (Spec.Layout.start digest front chunks i + (chunks[i] ++ digest chunks[i]).length)) =
          (.error .checksumMismatch, data.take (i * c.toNat)) := by
  obtain ⟨F, n, c, l, m', rfl, hF, hj, rfl, rfl, -, hcalc, h2, h3⟩ := packBytesToBytes_ok L h
  obtain ⟨-, -, -, -, g5, -, g7, -, g9, -⟩ := packHeader_ok h2
  obtain ⟨hl1, hl2, hl3, -⟩ := File.lookup hF.toPre
  have hsz0 : (F.impl E).size ≠ 0 := by
    intro hz
    have := (Hash.size_zero hl2).1 hz
    rw [hl3, g5] at this
    exact hb this
  rw [BloscpackHeader.checksumImpl, g5] at hl1
  refine ⟨n, c, l, (F.impl E).function, F.front E, F.chunks.map (·.1), hcalc, by rw [hl1]; rfl, ?_, ?_, ?_⟩
  · rw [← g7]; exact Layout_of hF hj h3
  · rw [List.length_map, ← hF.nchunks, g9]
  intro i hi c' dg' h4 h5 h6 h7
  have hi' : i < F.chunks.length := by simpa using hi
  have hsplit : F.chunks = F.chunks.take i ++ F.chunks[i] :: F.chunks.drop (i + 1) := by
    rw [List.getElem_cons_drop, List.take_append_drop]
  rw [List.getElem_map] at h4 h5 h6 ⊢
  generalize hp : F.chunks[i] = p at hsplit h4 h5 h6 ⊢
  have hsz := Hash.size_eq L hl2 p.1
  have hstart : Spec.Layout.start (F.impl E).function (F.front E) (F.chunks.map (·.1)) i =
      (F.front E ++ Spec.records (F.impl E).function ((F.chunks.take i).map (·.1))).length := by
    simp [Spec.Layout.start, Spec.records, ← List.map_take]
  have hbytes : F.bytes E = (F.front E ++ Spec.records (F.impl E).function ((F.chunks.take i).map (·.1))) ++
      ((p.1 ++ (F.impl E).function p.1) ++ (Spec.records (F.impl E).function ((F.chunks.drop (i + 1)).map (·.1)) ++ F.junk)) := by
    unfold File.bytes File.body
    conv => lhs; rw [hsplit]
    rw [List.map_append, List.map_cons, records_append, records_cons]
    simp
  have hdata : ((F.chunks.take i).map (·.2)).flatten = F.data.take (i * c.toNat) := by rw [hF.take_data, g7]
  have := unpackFrom_corrupt L hF.toValid hsplit c' dg' h4 h5 (by rw [h6, hsz]) hsz0 h7
  rw [hdata, ← List.append_assoc] at this
  rw [hstart, hbytes]
  generalize F.front E ++ Spec.records (F.impl E).function ((F.chunks.take i).map (·.1)) = Q at this ⊢
  have e1 : ∀ (x y z : Bytes), (x ++ (y ++ z)).drop (x.length + y.length) = z := fun x y z => by
    rw [← List.append_assoc, ← List.length_append, List.drop_left]
  rw [List.take_left, e1, ← this]
  simp

/-- both checksums at once -/
theorem burst_detected (E : Env μ) (L : E.Laws) (data : Bytes) (cs : ChunkSizeArg) (md : Option μ) (a : BloscArgs)
    (b : BloscpackArgs) (m : MetadataArgs) (out : Bytes) (h : packBytesToBytes E data cs md a b m = .ok out)
    (Small : Bytes → Bytes → Prop)
    (hb : b.checksum = "crc32" ∧ Small = Spec.Burst ∨ b.checksum = "adler32" ∧ Small = Spec.TwoBytes) :
    ∃ n c l digest front chunks, calculateNchunks data.length cs = .ok (n, c, l) ∧
      (checksumLookup E.hashlib b.checksum).map Hash.function = .ok digest ∧
      Spec.Layout E out data c.toNat a digest front chunks ∧ (chunks.length : Int) = n ∧
      ∀ i (hi : i < chunks.length) (c' : Bytes), c' ≠ chunks[i] → Small chunks[i] c' → slice c' 12 16 = slice chunks[i] 12 16 →
        unpackFrom E (out.take (Spec.Layout.start digest front chunks i) ++ c' ++
            out.drop (Spec.Layout.start digest front chunks i + chunks[i].length)) =
          (.error .checksumMismatch, data.take (i * c.toNat)) := by
  have hn : b.checksum ≠ "None" := by rcases hb with ⟨h, -⟩ | ⟨h, -⟩ <;> rw [h] <;> decide
  obtain ⟨n, c, l, digest, front, chunks, h1, h2, h3, h4, h5⟩ := replaced_chunk E L data cs md a b m out h hn
  refine ⟨n, c, l, digest, front, chunks, h1, h2, h3, h4, ?_⟩
  intro i hi c' hne hs hsl
  have hlen : c'.length = chunks[i].length := by
    rcases hb with ⟨-, rfl⟩ | ⟨-, rfl⟩
    · obtain ⟨P, u, v, S, hx, hy, hl, -⟩ := hs
      have e1 := congrArg List.length hx
      have e2 := congrArg List.length hy
      rw [messageBits_length] at e1 e2
      simp only [List.length_append] at e1 e2
      omega
    · obtain ⟨A, b, B, c, C, b', c'', hx, hy, -⟩ := hs
      rw [hx, hy]; simp
  have hdig : digest chunks[i] ≠ digest c' := by
    intro he
    apply hne
    rcases hb with ⟨hc, rfl⟩ | ⟨hc, rfl⟩
    · rw [hc] at h2
      obtain rfl : zlibHash crc32 = digest := by cases h2; rfl
      unfold zlibHash at he
      rw [Nat.mod_eq_of_lt (crc32_lt _), Nat.mod_eq_of_lt (crc32_lt _)] at he
      exact (crc32_burst hs (leEncode_inj (crc32_lt _) (crc32_lt _) he)).symm
    · rw [hc] at h2
      obtain rfl : zlibHash adler32 = digest := by cases h2; rfl
      unfold zlibHash at he
      rw [Nat.mod_eq_of_lt (adler32_lt _), Nat.mod_eq_of_lt (adler32_lt _)] at he
      exact (adler32_two hs (leEncode_inj (adler32_lt _) (adler32_lt _) he)).symm
  have key := h5 i hi c' (digest chunks[i]) hlen hsl rfl hdig
  rw [← key]
  congr 1
  have hb := h3.bytes
  have hsplit : chunks.flatMap (fun c => c ++ digest c) = (chunks.take i).flatMap (fun c => c ++ digest c) ++
      (chunks[i] ++ digest chunks[i]) ++ (chunks.drop (i + 1)).flatMap (fun c => c ++ digest c) := by
    have : chunks = chunks.take i ++ chunks[i] :: chunks.drop (i + 1) := by rw [List.getElem_cons_drop, List.take_append_drop]
    conv => lhs; rw [this]
    rw [List.flatMap_append, List.flatMap_cons]
    simp only [List.append_assoc]
  have hst : Spec.Layout.start digest front chunks i = (front ++ (chunks.take i).flatMap (fun c => c ++ digest c)).length := by
    simp [Spec.Layout.start]
  have hbytes : out = (front ++ (chunks.take i).flatMap (fun c => c ++ digest c)) ++ (chunks[i] ++ (digest chunks[i] ++
      (chunks.drop (i + 1)).flatMap (fun c => c ++ digest c))) := by rw [hb, hsplit]; simp
  rw [hst, hbytes]
  generalize front ++ (chunks.take i).flatMap (fun c => c ++ digest c) = Q
  have e1 : ∀ (x y z : Bytes), (x ++ (y ++ z)).drop (x.length + y.length) = z := fun x y z => by
    rw [← List.append_assoc, ← List.length_append, List.drop_left]
  rw [e1, ← List.append_assoc chunks[i], e1]
  simp

/-- C57, crc32: replacing a stored chunk by other bytes that differ from it within 32 consecutive bits (four consecutive bytes, for
instance), the length field being kept, makes unpacking raise `ChecksumMismatch`. Nothing of the chunk is output. -/
theorem C57_crc32 (E : Env μ) (L : E.Laws) (data : Bytes) (cs : ChunkSizeArg) (md : Option μ) (a : BloscArgs)
    (b : BloscpackArgs) (m : MetadataArgs) (out : Bytes) (h : packBytesToBytes E data cs md a b m = .ok out) (hb : b.checksum = "crc32") :
    ∃ n c l digest front chunks, calculateNchunks data.length cs = .ok (n, c, l) ∧
      (checksumLookup E.hashlib b.checksum).map Hash.function = .ok digest ∧
      Spec.Layout E out data c.toNat a digest front chunks ∧ (chunks.length : Int) = n ∧
      ∀ i (hi : i < chunks.length) (c' : Bytes), c' ≠ chunks[i] → Spec.Burst chunks[i] c' → slice c' 12 16 = slice chunks[i] 12 16 →
        unpackFrom E (out.take (Spec.Layout.start digest front chunks i) ++ c' ++
            out.drop (Spec.Layout.start digest front chunks i + chunks[i].length)) =
          (.error .checksumMismatch, data.take (i * c.toNat)) :=
  burst_detected E L data cs md a b m out h Spec.Burst (.inl ⟨hb, rfl⟩)

/-- C57, adler32: the same for a change of any two bytes whose distance is not a multiple of 65521. -/
theorem C57_adler32 (E : Env μ) (L : E.Laws) (data : Bytes) (cs : ChunkSizeArg) (md : Option μ) (a : BloscArgs)
    (b : BloscpackArgs) (m : MetadataArgs) (out : Bytes) (h : packBytesToBytes E data cs md a b m = .ok out) (hb : b.checksum = "adler32") :
    ∃ n c l digest front chunks, calculateNchunks data.length cs = .ok (n, c, l) ∧
      (checksumLookup E.hashlib b.checksum).map Hash.function = .ok digest ∧
      Spec.Layout E out data c.toNat a digest front chunks ∧ (chunks.length : Int) = n ∧
      ∀ i (hi : i < chunks.length) (c' : Bytes), c' ≠ chunks[i] → Spec.TwoBytes chunks[i] c' → slice c' 12 16 = slice chunks[i] 12 16 →
        unpackFrom E (out.take (Spec.Layout.start digest front chunks i) ++ c' ++
            out.drop (Spec.Layout.start digest front chunks i + chunks[i].length)) =
          (.error .checksumMismatch, data.take (i * c.toNat)) :=
  burst_detected E L data cs md a b m out h Spec.TwoBytes (.inr ⟨hb, rfl⟩)

-- four bytes behind the length field of the first chunk (at 32, its data from 48 on)
example : ((packBytesToBytes Toy.env [1, 2, 3, 4, 5] (.int 5) none {} { offsets := false, checksum := "crc32" }).toOption.map
      (fun out => (out.length, unpackFrom Toy.env (out.take 48 ++ [9, 9, 9, 9] ++ out.drop 52)))) = some (57, .error .checksumMismatch, []) := by
  decide +kernel

example : Spec.Burst ([2, 1, 2, 8] ++ [1, 2, 3, 4] ++ [5]) ([2, 1, 2, 8] ++ [9, 9, 9, 9] ++ [5]) := .bytes _ _ _ _ rfl (by decide)
example : Spec.TwoBytes [1, 2, 3, 4] [1, 7, 3, 0] := ⟨[1], 2, [3], 4, [], 7, 0, rfl, rfl, by decide⟩

/-- and the bounds are sharp: adler32 does not see this change of three bytes -/
theorem C57_adler32_limit : adler32 [10, 10, 10] = adler32 [11, 8, 11] := by decide

end Bloscpack
