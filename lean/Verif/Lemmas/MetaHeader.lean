import Verif.Lemmas.Headers
/-
Characterisation of the metadata header.
-/
namespace Bloscpack

theorem checkStr_iff {b : Bytes} {n : Nat} {u : Unit} : checkStr b n = .ok u ↔ b.length ≤ n := by
  unfold checkStr; split <;> simp <;> omega

theorem checkOptions_iff {o : List Char} {u : Unit} :
    checkOptions o = .ok u ↔ o.length = 8 ∧ ∀ c ∈ o, c = '0' ∨ c = '1' := by
  unfold checkOptions
  split
  · rename_i h
    simp only [reduceCtorEq, false_iff]
    rintro ⟨h1, h2⟩
    rcases h with h | h
    · exact h h1
    · apply h; simpa using h2
  · rename_i h
    simp only [true_iff]
    have h := not_or.1 h
    refine ⟨Decidable.not_not.1 h.1, ?_⟩
    have := Decidable.not_not.1 h.2
    simpa using this

theorem MetadataHeader.check_iff (h : MetadataHeader) {u : Unit} : h.check = .ok u ↔ h.OK := by
  unfold MetadataHeader.check MetadataHeader.OK Spec.MetaFieldsOK
  simp only [Except.bind_ok_iff, checkRange_iff, checkValidChecksum_iff, checkValidCodec_iff, checkStr_iff,
    checkOptions_iff, MAX_CLEVEL_eq, MAX_META_SIZE_eq]
  constructor
  · rintro ⟨-, h1, -, h2, -, h3, -, h4, -, h5, -, h6, -, h7, -, h8, h9⟩
    exact ⟨h1, h2, h3, h4, h5, h6, h7, h8, h9⟩
  · rintro ⟨h1, h2, h3, h4, h5, h6, h7, h8, h9⟩
    exact ⟨(), h1, (), h2, (), h3, (), h4, (), h5, (), h6, (), h7, (), h8, h9⟩

theorem MetadataHeader.new_iff (h h' : MetadataHeader) : h.new = .ok h' ↔ h.OK ∧ h' = h := by
  unfold MetadataHeader.new
  simp only [Except.bind_ok_iff, MetadataHeader.check_iff, Except.pure_eq]
  constructor
  · rintro ⟨_, h1, h2⟩; cases h2; exact ⟨h1, rfl⟩
  · rintro ⟨h1, rfl⟩; exact ⟨(), h1, rfl⟩

theorem bits_of_options : ∀ (o : List Char), (∀ c ∈ o, c = '0' ∨ c = '1') → ∃ bs : List Bool, bs.map boolChar = o
  | [], _ => ⟨[], rfl⟩
  | c :: cs, h => by
    obtain ⟨bs, hbs⟩ := bits_of_options cs (fun x hx => h x (List.mem_cons_of_mem _ hx))
    rcases h c List.mem_cons_self with hc | hc
    · exact ⟨false :: bs, by simp [boolChar, hbs, hc]⟩
    · exact ⟨true :: bs, by simp [boolChar, hbs, hc]⟩

theorem options_table : ∀ b0 b1 b2 b3 b4 b5 b6 b7 : Bool,
    encodeUInt8 (parseBin ([b0, b1, b2, b3, b4, b5, b6, b7].map boolChar)) =
      .ok [UInt8.ofNat (Spec.bitsValue ([b0, b1, b2, b3, b4, b5, b6, b7].map boolChar))] ∧
    decodeBitfield (UInt8.ofNat (Spec.bitsValue ([b0, b1, b2, b3, b4, b5, b6, b7].map boolChar))) =
      [b0, b1, b2, b3, b4, b5, b6, b7].map boolChar := by
  decide +kernel

theorem options_codec {o : List Char} (h8 : o.length = 8) (hc : ∀ c ∈ o, c = '0' ∨ c = '1') :
    encodeUInt8 (parseBin o) = .ok [UInt8.ofNat (Spec.bitsValue o)] ∧
    decodeBitfield (UInt8.ofNat (Spec.bitsValue o)) = o := by
  obtain ⟨bs, rfl⟩ := bits_of_options o hc
  rw [List.length_map] at h8
  match bs, h8 with
  | [b0, b1, b2, b3, b4, b5, b6, b7], _ => exact options_table b0 b1 b2 b3 b4 b5 b6 b7

theorem decodeBitfield_table : ∀ n, n < 256 →
    UInt8.ofNat (Spec.bitsValue (decodeBitfield (UInt8.ofNat n))) = UInt8.ofNat n := by decide +kernel
theorem bitsValue_decodeBitfield (x : UInt8) : UInt8.ofNat (Spec.bitsValue (decodeBitfield x)) = x :=
  forall_uint8 (P := fun x => UInt8.ofNat (Spec.bitsValue (decodeBitfield x)) = x) decodeBitfield_table x

theorem padWithNulls_eq {s : Bytes} (h : s.length ≤ 8) : padWithNulls s 8 = Spec.padded8 s := by
  unfold padWithNulls Spec.padded8
  rw [List.take_append, List.take_of_length_le h,
    show ([0, 0, 0, 0, 0, 0, 0, 0] : Bytes) = List.replicate 8 0 from rfl, List.take_replicate]
  congr 2; omega

theorem padded8_length (s : Bytes) : (Spec.padded8 s).length = 8 := by
  simp [Spec.padded8]

theorem MetadataHeader.bytes_length (h : MetadataHeader) : h.bytes.length = 32 := by
  simp [MetadataHeader.bytes, Spec.metaHeaderBytes, leBytes_length, padded8_length]

theorem MetadataHeader.encode_ok {h : MetadataHeader} (hh : h.OK) : h.encode = .ok h.bytes := by
  obtain ⟨h1, h2, h3, h4, h5, h6, h7, h8, h9⟩ := hh
  unfold MetadataHeader.encode MetadataHeader.bytes Spec.metaHeaderBytes
  rw [(options_codec h2.1 h2.2).1, checksumsAvail_eq, codecsAvail_eq, indexOf_of h3, indexOf_of h4,
    encodeUInt8_of h5.1 (by omega), encodeUInt32_of h6.1 h6.2, encodeUInt32_of h7.1 h7.2, encodeUInt32_of h8.1 h8.2,
    padWithNulls_eq h1, padWithNulls_eq h9]
  simp only [Except.ok_bind']
  rw [encodeUInt8_idx h3 (by decide), encodeUInt8_idx h4 (by decide)]
  simp

theorem dropWhile_zero_replicate (a : Nat) (t : Bytes) (ht : t.head? ≠ some 0) :
    (List.replicate a 0 ++ t).dropWhile (· == 0) = t := by
  induction a with
  | zero =>
    cases t with
    | nil => rfl
    | cons x xs =>
      have : x ≠ 0 := by simpa using ht
      simp [this]
  | succ a ih => simpa [List.replicate_succ] using ih

theorem dropWhile_replicate_nil (b : Nat) : (List.replicate b (0 : UInt8)).dropWhile (· == 0) = [] := by
  induction b with
  | zero => rfl
  | succ b ih => simp [List.replicate_succ, ih]

/-- stripping removes exactly the surrounding NULs -/
theorem stripNulls_spec (a b : Nat) (t : Bytes) (h1 : t.head? ≠ some 0) (h2 : t.getLast? ≠ some 0) :
    stripNulls (List.replicate a 0 ++ t ++ List.replicate b 0) = t := by
  unfold stripNulls
  cases t with
  | nil =>
    simp only [List.append_nil, List.replicate_append_replicate]
    rw [dropWhile_replicate_nil]; rfl
  | cons x xs =>
    rw [List.append_assoc, dropWhile_zero_replicate _ _ (by simpa using h1), List.reverse_append,
      List.reverse_replicate, dropWhile_zero_replicate]
    · simp
    · rw [List.head?_reverse]; exact h2

theorem strip_padded8 {s : Bytes} (a b : Nat) (t : Bytes) (h1 : t.head? ≠ some 0) (h2 : t.getLast? ≠ some 0)
    (hs : s = List.replicate a 0 ++ t ++ List.replicate b 0) (h8 : s.length ≤ 8) :
    decodeMagicString (Spec.padded8 s) = t := by
  rw [← padWithNulls_eq h8, padWithNulls, decodeMagicString]
  conv => lhs; rw [hs]
  rw [List.append_assoc, List.append_assoc, List.replicate_append_replicate, ← List.append_assoc]
  exact stripNulls_spec _ _ _ h1 h2

theorem MetadataHeader.decode_of_parts {b : Bytes} {x8 x9 x10 x11 : UInt8} {c k : String} {a1 a2 a3 : Int}
    (hlen : b.length = 32) (h8 : byteAt b 8 = .ok x8) (h9 : byteAt b 9 = .ok x9) (h10 : byteAt b 10 = .ok x10)
    (h11 : byteAt b 11 = .ok x11) (hc : nameAt checksumsAvail x9.toNat = .ok c)
    (hk : nameAt codecsAvail x10.toNat = .ok k) (h12 : decodeUInt32 (slice b 12 16) = .ok a1)
    (h16 : decodeUInt32 (slice b 16 20) = .ok a2) (h20 : decodeUInt32 (slice b 20 24) = .ok a3) :
    MetadataHeader.decode b = MetadataHeader.new ⟨decodeMagicString (slice b 0 8), decodeBitfield x8, c, k,
      decodeUInt8 x11, a1, a2, a3, decodeMagicString (slice b 24 32)⟩ := by
  have hl : ¬ b.length ≠ 32 := fun hc => hc hlen
  unfold MetadataHeader.decode
  rw [if_neg hl, h8, h9, h10, h11]
  simp only [Except.ok_bind', hc, hk, h12, h16, h20]

theorem exists_eight {l : Bytes} (h : l.length = 8) : ∃ a b c d e f g i, l = [a, b, c, d, e, f, g, i] := by
  match l, h with
  | [a, b, c, d, e, f, g, i], _ => exact ⟨_, _, _, _, _, _, _, _, rfl⟩

theorem MetadataHeader.decode_bytes {h : MetadataHeader} (hh : h.OK) :
    MetadataHeader.decode h.bytes = MetadataHeader.new { h with
      magic_format := decodeMagicString (Spec.padded8 h.magic_format)
      user_codec := decodeMagicString (Spec.padded8 h.user_codec) } := by
  have hlen := h.bytes_length
  obtain ⟨h1, h2, h3, h4, h5, h6, h7, h8, h9⟩ := id hh
  obtain ⟨a1, a2, a3, a4, ea⟩ := exists_leBytes_four h.meta_size
  obtain ⟨b1, b2, b3, b4, eb⟩ := exists_leBytes_four h.max_meta_size
  obtain ⟨c1, c2, c3, c4, ec⟩ := exists_leBytes_four h.meta_comp_size
  obtain ⟨m1, m2, m3, m4, m5, m6, m7, m8, em⟩ := exists_eight (padded8_length h.magic_format)
  obtain ⟨u1, u2, u3, u4, u5, u6, u7, u8, eu⟩ := exists_eight (padded8_length h.user_codec)
  have hb : h.bytes = [m1, m2, m3, m4, m5, m6, m7, m8, UInt8.ofNat (Spec.bitsValue h.meta_options),
      UInt8.ofNat (Spec.checksumNames.idxOf h.meta_checksum), UInt8.ofNat (Spec.codecNames.idxOf h.meta_codec),
      UInt8.ofNat h.meta_level.toNat, a1, a2, a3, a4, b1, b2, b3, b4, c1, c2, c3, c4,
      u1, u2, u3, u4, u5, u6, u7, u8] := by
    unfold MetadataHeader.bytes Spec.metaHeaderBytes
    rw [leBytes_one h5.1 (by omega), ea, eb, ec, em, eu]
    rfl
  rw [hb] at hlen ⊢
  rw [MetadataHeader.decode_of_parts hlen rfl rfl rfl rfl
    (nameAt_idxOf (l := Spec.checksumNames) h3 (by decide))
    (nameAt_idxOf (l := Spec.codecNames) h4 (by decide))
    (decodeUInt32_iff.2 ⟨(by omega : _ ≤ h.meta_size), by omega, ea.symm⟩)
    (decodeUInt32_iff.2 ⟨(by omega : _ ≤ h.max_meta_size), by omega, eb.symm⟩)
    (decodeUInt32_iff.2 ⟨(by omega : _ ≤ h.meta_comp_size), by omega, ec.symm⟩),
    decodeUInt8_of h5.1 (by omega), (options_codec h2.1 h2.2).2, em, eu]
  rfl

theorem MetadataHeader.decode_ok {b : Bytes} {h : MetadataHeader} (hd : MetadataHeader.decode b = .ok h) :
    h.OK ∧ b.length = 32 := by
  unfold MetadataHeader.decode at hd
  by_cases hlen : b.length = 32
  · rw [if_neg (by simp [hlen])] at hd
    simp only [Except.bind_ok_iff] at hd
    obtain ⟨_, _, _, _, _, _, _, _, _, _, _, _, _, _, _, _, _, _, hn⟩ := hd
    obtain ⟨h1, h2⟩ := (MetadataHeader.new_iff _ _).1 hn
    subst h2
    exact ⟨h1, hlen⟩
  · rw [if_pos (by simpa using hlen)] at hd; cases hd

end Bloscpack
