import Verif.Model.Headers
import Verif.Spec.Objects
import Verif.Lemmas.LE
/-
Characterisation of the header checks, encoders and decoders.
-/
namespace Bloscpack

theorem MAX_CHUNKS_eq : MAX_CHUNKS = 2 ^ 63 - 1 := rfl
theorem MAX_META_SIZE_eq : MAX_META_SIZE = 2 ^ 32 - 1 := rfl
theorem BLOSC_MAX_BUFFERSIZE_eq : BLOSC_MAX_BUFFERSIZE = 2 ^ 31 - 17 := rfl
theorem BLOSC_MAX_TYPESIZE_eq : BLOSC_MAX_TYPESIZE = 255 := rfl
theorem MAX_FORMAT_VERSION_eq : MAX_FORMAT_VERSION = 255 := rfl
theorem MAX_CLEVEL_eq : MAX_CLEVEL = 9 := rfl

theorem checkRange_ok {v a b : Int} (h0 : a ≤ v) (h1 : v ≤ b) : checkRange (.int v) a b = .ok () := by
  simp [checkRange, h0, h1]
theorem checkRange_bad {v a b : Int} (h : ¬ (a ≤ v ∧ v ≤ b)) : checkRange (.int v) a b = .error .valueError := by
  simp only [checkRange, if_neg h]
theorem checkRange_iff {v a b : Int} {u : Unit} : checkRange (.int v) a b = .ok u ↔ a ≤ v ∧ v ≤ b := by
  simp only [checkRange]; split <;> simp_all

theorem checksumsAvail_eq : checksumsAvail = Spec.checksumNames := rfl
theorem codecsAvail_eq : codecsAvail = Spec.codecNames := rfl

theorem checkValidChecksum_iff {c : String} {u : Unit} :
    checkValidChecksum c = .ok u ↔ c ∈ Spec.checksumNames := by
  unfold checkValidChecksum; rw [← checksumsAvail_eq]; split <;> simp_all
theorem checkValidCodec_iff {c : String} {u : Unit} : checkValidCodec c = .ok u ↔ c ∈ Spec.codecNames := by
  unfold checkValidCodec; rw [← codecsAvail_eq]; split <;> simp_all

theorem ite_throw_ok {c : Prop} [Decidable c] {u : Unit} :
    (if c then (throw Err.valueError : Except Err Unit) else pure ()) = .ok u ↔ ¬ c := by
  split <;> simp_all

theorem BloscpackHeader.check_iff (h : BloscpackHeader) {u : Unit} : h.check = .ok u ↔ h.OK := by
  unfold BloscpackHeader.check BloscpackHeader.OK Spec.HeaderFieldsOK
  simp only [Except.bind_ok_iff, checkRange_iff, checkValidChecksum_iff, MAX_FORMAT_VERSION_eq,
    BLOSC_MAX_TYPESIZE_eq, BLOSC_MAX_BUFFERSIZE_eq, MAX_CHUNKS_eq]
  constructor
  · rintro ⟨-, h1, -, h2, -, h3, -, h4, -, h5, -, h6, -, h7, hh⟩
    refine ⟨h1, h2, h3, h4, h5, h6, h7, ?_⟩
    split at hh
    · rename_i hn
      simp only [Except.bind_ok_iff, checkRange_iff, ite_throw_ok] at hh
      obtain ⟨-, h8, h9⟩ := hh
      exact ⟨fun _ => h8.2, fun h => absurd h hn, fun a b => by omega⟩
    · rename_i hn
      split at hh
      · simp at hh
      · rw [ite_throw_ok] at hh
        exact ⟨fun h => absurd h hn, fun _ => by omega, fun a b => by omega⟩
  · rintro ⟨h1, h2, h3, h4, h5, h6, h7, h8, h9, h10⟩
    refine ⟨(), h1, (), h2, (), h3, (), h4, (), h5, (), h6, (), h7, ?_⟩
    split
    · rename_i hn
      rw [checkRange_ok (by omega) (h8 hn)]
      simp only [Except.ok_bind', ite_throw_ok]
      omega
    · rename_i hn
      rw [if_neg (by simp [h9 (by omega)])]
      rw [ite_throw_ok]
      omega

theorem BloscpackHeader.new_iff (h h' : BloscpackHeader) : h.new = .ok h' ↔ h.OK ∧ h' = h := by
  unfold BloscpackHeader.new
  simp only [Except.bind_ok_iff, BloscpackHeader.check_iff]
  constructor
  · rintro ⟨_, h1, h2⟩; cases h2; exact ⟨h1, rfl⟩
  · rintro ⟨h1, rfl⟩; exact ⟨(), h1, rfl⟩


/-! ### bytes -/

theorem forall_uint8 {P : UInt8 → Prop} (h : ∀ n, n < 256 → P (UInt8.ofNat n)) (x : UInt8) : P x := by
  have := h x.toNat x.toNat_lt
  simpa using this

theorem byteAt_iff {b : Bytes} {i : Nat} {x : UInt8} : byteAt b i = .ok x ↔ slice b i (i + 1) = [x] := by
  unfold byteAt slice
  have e : i + 1 - i = 1 := by omega
  rw [e]
  rw [show b[i]? = (b.drop i)[0]? by simp]
  cases b.drop i with
  | nil => simp
  | cons y ys => simp

theorem leBytes_one {v : Int} (h0 : 0 ≤ v) (h1 : v ≤ 255) : Spec.leBytes 1 v = [UInt8.ofNat v.toNat] := by
  have : v % 256 = v := Int.emod_eq_of_lt h0 (by omega)
  simp [Spec.leBytes, List.range_succ, this]

theorem encodeUInt8_of {v : Int} (h0 : 0 ≤ v) (h1 : v ≤ 255) : encodeUInt8 v = .ok (Spec.leBytes 1 v) :=
  (packUnsigned_iff 1 v _).2 ⟨h0, by omega, rfl⟩
theorem encodeUInt32_of {v : Int} (h0 : 0 ≤ v) (h1 : v ≤ 2 ^ 32 - 1) : encodeUInt32 v = .ok (Spec.leBytes 4 v) :=
  (packUnsigned_iff 4 v _).2 ⟨h0, by omega, rfl⟩
theorem encodeInt32_of {v : Int} (h0 : -2 ^ 31 ≤ v) (h1 : v ≤ 2 ^ 31 - 1) : encodeInt32 v = .ok (Spec.leBytes 4 v) :=
  (packSigned_iff 4 v _).2 ⟨by omega, by omega, rfl⟩
theorem encodeInt64_of {v : Int} (h0 : -2 ^ 63 ≤ v) (h1 : v ≤ 2 ^ 63 - 1) : encodeInt64 v = .ok (Spec.leBytes 8 v) :=
  (packSigned_iff 8 v _).2 ⟨by omega, by omega, rfl⟩

theorem decodeUInt8_of {v : Int} (h0 : 0 ≤ v) (h1 : v ≤ 255) : decodeUInt8 (UInt8.ofNat v.toNat) = v := by
  unfold decodeUInt8
  rw [UInt8.toNat_ofNat_of_lt' (by simp only [UInt8.size]; omega)]
  omega
theorem decodeUInt8_range (x : UInt8) : 0 ≤ decodeUInt8 x ∧ decodeUInt8 x ≤ 255 := by
  have := x.toNat_lt
  unfold decodeUInt8; omega
theorem leBytes_decodeUInt8 (x : UInt8) : Spec.leBytes 1 (decodeUInt8 x) = [x] := by
  rw [leBytes_one (decodeUInt8_range x).1 (decodeUInt8_range x).2]
  simp [decodeUInt8]

theorem decodeUInt32_iff {v : Int} {b : Bytes} :
    decodeUInt32 b = .ok v ↔ 0 ≤ v ∧ v ≤ 2 ^ 32 - 1 ∧ b = Spec.leBytes 4 v := by
  have : decodeUInt32 b = .ok v ↔ packUnsigned 4 v = .ok b := ⟨packUnsigned_unpack, unpackUnsigned_pack⟩
  rw [this, packUnsigned_iff]
  constructor <;> rintro ⟨h1, h2, h3⟩ <;> exact ⟨by omega, by omega, h3⟩
theorem decodeInt32_iff {v : Int} {b : Bytes} :
    decodeInt32 b = .ok v ↔ -2 ^ 31 ≤ v ∧ v ≤ 2 ^ 31 - 1 ∧ b = Spec.leBytes 4 v := by
  have : decodeInt32 b = .ok v ↔ packSigned 4 v = .ok b :=
    ⟨packSigned_unpack (by decide), unpackSigned_pack (by decide)⟩
  rw [this, packSigned_iff]
  constructor <;> rintro ⟨h1, h2, h3⟩ <;> exact ⟨by omega, by omega, h3⟩
theorem decodeInt64_iff {v : Int} {b : Bytes} :
    decodeInt64 b = .ok v ↔ -2 ^ 63 ≤ v ∧ v ≤ 2 ^ 63 - 1 ∧ b = Spec.leBytes 8 v := by
  have : decodeInt64 b = .ok v ↔ packSigned 8 v = .ok b :=
    ⟨packSigned_unpack (by decide), unpackSigned_pack (by decide)⟩
  rw [this, packSigned_iff]
  constructor <;> rintro ⟨h1, h2, h3⟩ <;> exact ⟨by omega, by omega, h3⟩

/-! ### options and names -/

theorem parse_createOptions (o m : Bool) :
    encodeUInt8 (parseBin (createOptions o m)) = .ok [Spec.optionsByte o m] := by
  cases o <;> cases m <;> decide

theorem decodeOptions_table : ∀ n, n < 256 → ∀ o m : Bool,
    decodeOptions (decodeBitfield (UInt8.ofNat n)) = .ok (o, m) ↔ UInt8.ofNat n = Spec.optionsByte o m := by
  decide +kernel

theorem decodeOptions_iff (x : UInt8) (o m : Bool) :
    decodeOptions (decodeBitfield x) = .ok (o, m) ↔ x = Spec.optionsByte o m :=
  forall_uint8 (P := fun x => ∀ o m : Bool, decodeOptions (decodeBitfield x) = .ok (o, m) ↔ x = Spec.optionsByte o m)
    decodeOptions_table x o m

theorem indexOf_of {l : List String} {c : String} (h : c ∈ l) : indexOf l c = .ok (l.idxOf c : Int) := by
  simp [indexOf, h]

theorem nameAt_idxOf {l : List String} {c : String} (h : c ∈ l) (hl : l.length ≤ 256) :
    nameAt l (UInt8.ofNat (l.idxOf c)).toNat = .ok c := by
  have hi := List.idxOf_lt_length_of_mem h
  rw [UInt8.toNat_ofNat_of_lt' (by simp only [UInt8.size]; omega)]
  unfold nameAt
  rw [List.getElem?_eq_getElem hi]
  simp

theorem nameAt_checksum_table : ∀ n, n < 256 → ∀ c ∈ Spec.checksumNames,
    nameAt checksumsAvail (UInt8.ofNat n).toNat = .ok c → UInt8.ofNat n = UInt8.ofNat (Spec.checksumNames.idxOf c) := by
  decide +kernel
theorem nameAt_codec_table : ∀ n, n < 256 → ∀ c ∈ Spec.codecNames,
    nameAt codecsAvail (UInt8.ofNat n).toNat = .ok c → UInt8.ofNat n = UInt8.ofNat (Spec.codecNames.idxOf c) := by
  decide +kernel

theorem nameAt_mem {l : List String} {i : Nat} {c : String} (h : nameAt l i = .ok c) : c ∈ l := by
  unfold nameAt at h
  split at h
  · cases h; exact List.mem_of_getElem? (by assumption)
  · cases h

theorem nameAt_checksum {x : UInt8} {c : String} (h : nameAt checksumsAvail x.toNat = .ok c) :
    c ∈ Spec.checksumNames ∧ x = UInt8.ofNat (Spec.checksumNames.idxOf c) := by
  have hm := nameAt_mem h
  exact ⟨hm, forall_uint8 (P := fun x => ∀ c ∈ Spec.checksumNames, nameAt checksumsAvail x.toNat = .ok c →
    x = UInt8.ofNat (Spec.checksumNames.idxOf c)) nameAt_checksum_table x c hm h⟩
theorem nameAt_codec {x : UInt8} {c : String} (h : nameAt codecsAvail x.toNat = .ok c) :
    c ∈ Spec.codecNames ∧ x = UInt8.ofNat (Spec.codecNames.idxOf c) := by
  have hm := nameAt_mem h
  exact ⟨hm, forall_uint8 (P := fun x => ∀ c ∈ Spec.codecNames, nameAt codecsAvail x.toNat = .ok c →
    x = UInt8.ofNat (Spec.codecNames.idxOf c)) nameAt_codec_table x c hm h⟩

/-! ### the bloscpack header -/

theorem BloscpackHeader.bytes_length (h : BloscpackHeader) : h.bytes.length = 32 := by
  simp [BloscpackHeader.bytes, Spec.headerBytes, leBytes_length]

theorem encodeUInt8_idx {l : List String} {c : String} (h : c ∈ l) (hl : l.length ≤ 256) :
    encodeUInt8 (l.idxOf c : Int) = .ok [UInt8.ofNat (l.idxOf c)] := by
  have hi := List.idxOf_lt_length_of_mem h
  rw [encodeUInt8_of (by omega) (by omega), leBytes_one (by omega) (by omega)]
  simp

/-- fields of a header that `encode` can represent, whether or not the constructor would accept them
(`append_fp` encodes headers it modified without checking them again) -/
theorem BloscpackHeader.encode_of (h : BloscpackHeader) (hv : 0 ≤ h.format_version ∧ h.format_version ≤ 255)
    (hc : h.checksum ∈ Spec.checksumNames) (ht : 0 ≤ h.typesize ∧ h.typesize ≤ 255)
    (hcs : -2 ^ 31 ≤ h.chunk_size ∧ h.chunk_size ≤ 2 ^ 31 - 1) (hlc : -2 ^ 31 ≤ h.last_chunk ∧ h.last_chunk ≤ 2 ^ 31 - 1)
    (hn : -2 ^ 63 ≤ h.nchunks ∧ h.nchunks ≤ 2 ^ 63 - 1)
    (hm : -2 ^ 63 ≤ h.max_app_chunks ∧ h.max_app_chunks ≤ 2 ^ 63 - 1) : h.encode = .ok h.bytes := by
  unfold BloscpackHeader.encode BloscpackHeader.bytes Spec.headerBytes
  rw [encodeUInt8_of hv.1 hv.2, parse_createOptions, checksumsAvail_eq, indexOf_of hc, encodeUInt8_of ht.1 ht.2,
    encodeInt32_of hcs.1 hcs.2, encodeInt32_of hlc.1 hlc.2, encodeInt64_of hn.1 hn.2, encodeInt64_of hm.1 hm.2]
  simp only [Except.ok_bind']
  rw [encodeUInt8_idx hc (by decide)]
  rfl

theorem BloscpackHeader.encode_ok {h : BloscpackHeader} (hh : h.OK) : h.encode = .ok h.bytes := by
  obtain ⟨h1, h2, h3, h4, h5, h6, h7, h8, h9, h10⟩ := hh
  exact h.encode_of h1 h2 h3 (by omega) (by omega) (by omega) (by omega)

theorem exists_leBytes_four (v : Int) : ∃ a b c d, Spec.leBytes 4 v = [a, b, c, d] := ⟨_, _, _, _, rfl⟩
theorem exists_leBytes_eight (v : Int) : ∃ a b c d e f g h, Spec.leBytes 8 v = [a, b, c, d, e, f, g, h] :=
  ⟨_, _, _, _, _, _, _, _, rfl⟩

theorem BloscpackHeader.decode_of_parts {b : Bytes} {x4 x5 x6 x7 : UInt8} {o m : Bool} {c : String} {cs lc nc ma : Int}
    (hlen : b.length = 32) (hmag : slice b 0 4 = MAGIC) (h4 : byteAt b 4 = .ok x4) (h5 : byteAt b 5 = .ok x5)
    (h6 : byteAt b 6 = .ok x6) (h7 : byteAt b 7 = .ok x7) (ho : decodeOptions (decodeBitfield x5) = .ok (o, m))
    (hc : nameAt checksumsAvail x6.toNat = .ok c) (h8 : decodeInt32 (slice b 8 12) = .ok cs)
    (h12 : decodeInt32 (slice b 12 16) = .ok lc) (h16 : decodeInt64 (slice b 16 24) = .ok nc)
    (h24 : decodeInt64 (slice b 24 32) = .ok ma) :
    BloscpackHeader.decode b = BloscpackHeader.new ⟨decodeUInt8 x4, o, m, c, decodeUInt8 x7, cs, lc, nc, ma⟩ := by
  have hl : ¬ b.length ≠ BLOSCPACK_HEADER_LENGTH := fun hc => hc hlen
  have hm : ¬ slice b 0 4 ≠ MAGIC := fun hc => hc hmag
  unfold BloscpackHeader.decode
  rw [if_neg hl, if_neg hm, h4, h5, h6, h7]
  simp only [Except.ok_bind', ho, hc, h8, h12, h16, h24]

theorem BloscpackHeader.decode_bytes {h : BloscpackHeader} (hh : h.OK) : BloscpackHeader.decode h.bytes = .ok h := by
  have hlen := h.bytes_length
  obtain ⟨h1, h2, h3, h4, h5, h6, h7, h8, h9, h10⟩ := id hh
  obtain ⟨a1, a2, a3, a4, ea⟩ := exists_leBytes_four h.chunk_size
  obtain ⟨b1, b2, b3, b4, eb⟩ := exists_leBytes_four h.last_chunk
  obtain ⟨c1, c2, c3, c4, c5, c6, c7, c8, ec⟩ := exists_leBytes_eight h.nchunks
  obtain ⟨d1, d2, d3, d4, d5, d6, d7, d8, ed⟩ := exists_leBytes_eight h.max_app_chunks
  have hb : h.bytes = [0x62, 0x6c, 0x70, 0x6b, UInt8.ofNat h.format_version.toNat, Spec.optionsByte h.offsets h.metadata,
      UInt8.ofNat (Spec.checksumNames.idxOf h.checksum), UInt8.ofNat h.typesize.toNat, a1, a2, a3, a4, b1, b2, b3, b4,
      c1, c2, c3, c4, c5, c6, c7, c8, d1, d2, d3, d4, d5, d6, d7, d8] := by
    unfold BloscpackHeader.bytes Spec.headerBytes
    rw [leBytes_one h1.1 h1.2, leBytes_one h3.1 h3.2, ea, eb, ec, ed]
    rfl
  rw [hb] at hlen ⊢
  rw [BloscpackHeader.decode_of_parts hlen rfl rfl rfl rfl rfl ((decodeOptions_iff _ _ _).2 rfl)
    (nameAt_idxOf (l := Spec.checksumNames) h2 (by decide))
    (decodeInt32_iff.2 ⟨(by omega : _ ≤ h.chunk_size), by omega, ea.symm⟩)
    (decodeInt32_iff.2 ⟨(by omega : _ ≤ h.last_chunk), by omega, eb.symm⟩)
    (decodeInt64_iff.2 ⟨(by omega : _ ≤ h.nchunks), by omega, ec.symm⟩)
    (decodeInt64_iff.2 ⟨(by omega : _ ≤ h.max_app_chunks), by omega, ed.symm⟩),
    decodeUInt8_of h1.1 h1.2, decodeUInt8_of h3.1 h3.2]
  exact (BloscpackHeader.new_iff _ _).2 ⟨hh, rfl⟩

theorem BloscpackHeader.decode_iff (b : Bytes) (h : BloscpackHeader) :
    BloscpackHeader.decode b = .ok h ↔ h.OK ∧ b = h.bytes := by
  constructor
  · intro hd
    unfold BloscpackHeader.decode at hd
    by_cases hlen : b.length = 32
    rotate_left
    · rw [if_pos (by simpa [BLOSCPACK_HEADER_LENGTH] using hlen)] at hd; cases hd
    rw [if_neg (by simp [BLOSCPACK_HEADER_LENGTH, hlen])] at hd
    by_cases hmag : slice b 0 4 = MAGIC
    rotate_left
    · rw [if_pos hmag] at hd; cases hd
    rw [if_neg (by simp [hmag])] at hd
    simp only [Except.bind_ok_iff] at hd
    obtain ⟨x5, h5, ⟨o, m⟩, hom, x4, h4, x6, h6, c, hc, x7, h7, cs, hcs, lc, hlc, nc, hnc, ma, hma, hn⟩ := hd
    obtain ⟨hok, rfl⟩ := (BloscpackHeader.new_iff _ _).1 hn
    refine ⟨hok, ?_⟩
    have hx5 := (decodeOptions_iff _ _ _).1 hom
    obtain ⟨_, hx6⟩ := nameAt_checksum hc
    rw [byteAt_iff] at h4 h5 h6 h7
    have hcs := (decodeInt32_iff.1 hcs).2.2
    have hlc := (decodeInt32_iff.1 hlc).2.2
    have hnc := (decodeInt64_iff.1 hnc).2.2
    have hma := (decodeInt64_iff.1 hma).2.2
    simp only [BloscpackHeader.bytes, Spec.headerBytes, leBytes_decodeUInt8, ← hcs, ← hlc, ← hnc, ← hma, ← hx5, ← hx6,
      ← h4, ← h5, ← h6, ← h7]
    rw [show ([98, 108, 112, 107] : List UInt8) = slice b 0 4 from hmag.symm]
    rw [slice_cat _ _ _ _ (by omega) (by omega), slice_cat _ _ _ _ (by omega) (by omega),
      slice_cat _ _ _ _ (by omega) (by omega), slice_cat _ _ _ _ (by omega) (by omega),
      slice_cat _ _ _ _ (by omega) (by omega), slice_cat _ _ _ _ (by omega) (by omega),
      slice_cat _ _ _ _ (by omega) (by omega), slice_cat _ _ _ _ (by omega) (by omega),
      slice_all _ _ (by omega)]
  · rintro ⟨hok, rfl⟩; exact BloscpackHeader.decode_bytes hok

end Bloscpack
