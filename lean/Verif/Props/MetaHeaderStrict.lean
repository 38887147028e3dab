import Verif.Props.Headers
/-
C79: which 32 bytes are a metadata header, and what they mean.
-/
namespace Bloscpack

theorem byteAt_of {b : Bytes} {i : Nat} {x : UInt8} (h : b[i]? = some x) : byteAt b i = .ok x := by
  unfold byteAt; rw [h]

theorem decodeUInt32_total {b : Bytes} (h : b.length = 4) : ∃ v, decodeUInt32 b = .ok v ∧ 0 ≤ v ∧ v ≤ 2 ^ 32 - 1 := by
  obtain ⟨v, hv⟩ : ∃ v, decodeUInt32 b = .ok v := ⟨_, if_pos h⟩
  exact ⟨v, hv, (decodeUInt32_iff.1 hv).1, (decodeUInt32_iff.1 hv).2.1⟩

theorem stripNulls_length_le (s : Bytes) : (stripNulls s).length ≤ s.length := by
  unfold stripNulls
  rw [List.length_reverse]
  refine Nat.le_trans (List.dropWhile_sublist _).length_le ?_
  rw [List.length_reverse]
  exact (List.dropWhile_sublist _).length_le

theorem checksum_number : ∀ n, n < 256 → (if n < 9 then ∃ c ∈ Spec.checksumNames, nameAt checksumsAvail n = .ok c
    else nameAt checksumsAvail n = .error .indexError) := by
  intro n _
  split
  · rename_i h
    have : n < checksumsAvail.length := h
    refine ⟨checksumsAvail[n], List.getElem_mem this, ?_⟩
    simp [nameAt, List.getElem?_eq_getElem this]
  · rename_i h
    have : checksumsAvail[n]? = none := List.getElem?_eq_none (Nat.le_of_not_lt h)
    simp [nameAt, this]

theorem codec_number : ∀ n, n < 256 → (if n < 2 then ∃ c ∈ Spec.codecNames, nameAt codecsAvail n = .ok c
    else nameAt codecsAvail n = .error .indexError) := by
  intro n _
  split
  · rename_i h
    have : n < codecsAvail.length := h
    refine ⟨codecsAvail[n], List.getElem_mem this, ?_⟩
    simp [nameAt, List.getElem?_eq_getElem this]
  · rename_i h
    have : codecsAvail[n]? = none := List.getElem?_eq_none (Nat.le_of_not_lt h)
    simp [nameAt, this]

theorem decodeBitfield_ok_table : ∀ n, n < 256 → checkOptions (decodeBitfield (UInt8.ofNat n)) = .ok () := by decide +kernel
theorem decodeBitfield_ok (x : UInt8) : checkOptions (decodeBitfield x) = .ok () :=
  forall_uint8 (P := fun x => checkOptions (decodeBitfield x) = .ok ()) decodeBitfield_ok_table x

/-- all cases of a buffer of the right length -/
theorem decode_32 {b : Bytes} {k c l : UInt8} (hlen : b.length = 32) (h9 : b[9]? = some k) (h10 : b[10]? = some c) (h11 : b[11]? = some l) :
    (9 ≤ k.toNat ∨ 2 ≤ c.toNat → MetadataHeader.decode b = .error .indexError) ∧
    (k.toNat < 9 → c.toNat < 2 → 9 < l.toNat → MetadataHeader.decode b = .error .valueError) ∧
    (k.toNat < 9 → c.toNat < 2 → l.toNat ≤ 9 → ∃ h, MetadataHeader.decode b = .ok h) := by
  obtain ⟨o, h8⟩ : ∃ o, b[8]? = some o := ⟨b[8]'(by omega), List.getElem?_eq_getElem (by omega)⟩
  have hk := checksum_number k.toNat k.toNat_lt
  have hc := codec_number c.toNat c.toNat_lt
  have hl : ¬ b.length ≠ 32 := fun hc => hc hlen
  refine ⟨?_, ?_⟩
  · intro h
    unfold MetadataHeader.decode
    rw [if_neg hl, byteAt_of h8, byteAt_of h9, byteAt_of h10]
    simp only [Except.ok_bind']
    by_cases hk9 : k.toNat < 9
    · rw [if_pos hk9] at hk
      rw [if_neg (by omega)] at hc
      obtain ⟨s, -, hk⟩ := hk
      rw [hk, hc]
      rfl
    · rw [if_neg hk9] at hk
      rw [hk]
      rfl
  · have : ∀ (hk9 : k.toNat < 9) (hc2 : c.toNat < 2), ∃ h : MetadataHeader, MetadataHeader.decode b = h.new ∧ (h.meta_level = l.toNat) ∧
        (l.toNat ≤ 9 → h.OK) ∧ (9 < l.toNat → h.check = .error .valueError) := by
      intro hk9 hc2
      rw [if_pos hk9] at hk
      rw [if_pos hc2] at hc
      obtain ⟨s, hs, hk⟩ := hk
      obtain ⟨t, ht, hc⟩ := hc
      obtain ⟨a1, d1, r1, r1'⟩ := decodeUInt32_total (b := slice b 12 16) (by simp [slice]; omega)
      obtain ⟨a2, d2, r2, r2'⟩ := decodeUInt32_total (b := slice b 16 20) (by simp [slice]; omega)
      obtain ⟨a3, d3, r3, r3'⟩ := decodeUInt32_total (b := slice b 20 24) (by simp [slice]; omega)
      have m1 : (decodeMagicString (slice b 0 8)).length ≤ 8 :=
        Nat.le_trans (stripNulls_length_le _) (by simp [slice]; omega)
      have m2 : (decodeMagicString (slice b 24 32)).length ≤ 8 :=
        Nat.le_trans (stripNulls_length_le _) (by simp [slice]; omega)
      refine ⟨_, MetadataHeader.decode_of_parts hlen (byteAt_of h8) (byteAt_of h9) (byteAt_of h10) (byteAt_of h11) hk hc d1 d2 d3, rfl, ?_, ?_⟩
      · intro hl9
        have hl0 := decodeUInt8_range l
        refine ⟨m1, checkOptions_iff.1 (decodeBitfield_ok o), hs, ht, ⟨hl0.1, ?_⟩, ⟨r1, r1'⟩, ⟨r2, r2'⟩, ⟨r3, r3'⟩, m2⟩
        show (l.toNat : Int) ≤ 9
        omega
      · intro hl9
        unfold MetadataHeader.check
        have e1 : checkStr (decodeMagicString (slice b 0 8)) 8 = .ok () := checkStr_iff.2 m1
        have e2 : checkValidChecksum s = .ok () := checkValidChecksum_iff.2 hs
        have e3 : checkValidCodec t = .ok () := checkValidCodec_iff.2 ht
        simp only [e1, e2, e3, decodeBitfield_ok, Except.ok_bind']
        rw [checkRange_bad (by show ¬ (0 ≤ (l.toNat : Int) ∧ (l.toNat : Int) ≤ 9); omega)]
        rfl
    refine ⟨fun h1 h2 h3 => ?_, fun h1 h2 h3 => ?_⟩
    · obtain ⟨h, e1, -, -, e2⟩ := this h1 h2
      rw [e1, MetadataHeader.new, e2 h3]
      rfl
    · obtain ⟨h, e1, -, e2, -⟩ := this h1 h2
      exact ⟨h, by rw [e1]; exact (MetadataHeader.new_iff _ _).2 ⟨e2 h3, rfl⟩⟩

/-- C79: a metadata header is read from exactly the buffers of 32 bytes whose checksum number is one of 0 to 8, whose codec number is
0 or 1 and whose level is at most 9; the reserved option bits are not looked at. -/
theorem C79_accepted (b : Bytes) :
    (∃ h, MetadataHeader.decode b = .ok h) ↔
      b.length = 32 ∧ (∃ k c l, b[9]? = some k ∧ b[10]? = some c ∧ b[11]? = some l ∧ k.toNat < 9 ∧ c.toNat < 2 ∧ l.toNat ≤ 9) := by
  constructor
  · rintro ⟨h, hd⟩
    have hlen := (MetadataHeader.decode_ok hd).2
    refine ⟨hlen, b[9]'(by omega), b[10]'(by omega), b[11]'(by omega), List.getElem?_eq_getElem _, List.getElem?_eq_getElem _,
      List.getElem?_eq_getElem _, ?_⟩
    obtain ⟨h1, h2, -⟩ := decode_32 hlen (List.getElem?_eq_getElem (i := 9) (by omega)) (List.getElem?_eq_getElem (i := 10) (by omega))
      (List.getElem?_eq_getElem (i := 11) (by omega))
    rw [hd] at h1 h2
    refine ⟨Nat.lt_of_not_le fun hc => ?_, Nat.lt_of_not_le fun hc => ?_, Nat.le_of_not_lt fun hc => ?_⟩
    · cases h1 (.inl hc)
    · cases h1 (.inr hc)
    · by_cases hk : 9 ≤ b[9].toNat
      · cases h1 (.inl hk)
      · by_cases hk2 : 2 ≤ b[10].toNat
        · cases h1 (.inr hk2)
        · cases h2 (by omega) (by omega) hc
  · rintro ⟨hlen, k, c, l, h9, h10, h11, r1, r2, r3⟩
    exact (decode_32 hlen h9 h10 h11).2.2 r1 r2 r3

/-- C79: what is read is what the bytes say: `b` is the documented layout of the fields, with the options byte as eight binary digits,
and the two strings without the surrounding NULs. -/
theorem C79_meaning (b : Bytes) (h : MetadataHeader) (hd : MetadataHeader.decode b = .ok h) :
    ∃ (m u : Bytes) (i j k l : Nat), m.length = 8 ∧ u.length = 8 ∧
      m = List.replicate i 0 ++ h.magic_format ++ List.replicate j 0 ∧ h.magic_format.head? ≠ some 0 ∧ h.magic_format.getLast? ≠ some 0 ∧
      u = List.replicate k 0 ++ h.user_codec ++ List.replicate l 0 ∧ h.user_codec.head? ≠ some 0 ∧ h.user_codec.getLast? ≠ some 0 ∧
      Spec.MetaFieldsOK h.magic_format h.meta_options h.meta_checksum h.meta_codec h.meta_level h.meta_size h.max_meta_size
        h.meta_comp_size h.user_codec ∧
      b = Spec.metaHeaderBytes m h.meta_options h.meta_checksum h.meta_codec h.meta_level h.meta_size h.max_meta_size
        h.meta_comp_size u := by
  have hlen := (MetadataHeader.decode_ok hd).2
  unfold MetadataHeader.decode at hd
  rw [if_neg (by simp [hlen])] at hd
  simp only [Except.bind_ok_iff] at hd
  obtain ⟨x8, h8, x9, h9, c, hc, x10, h10, k, hk, x11, h11, a1, h12, a2, h16, a3, h20, hn⟩ := hd
  obtain ⟨hok, rfl⟩ := (MetadataHeader.new_iff _ _).1 hn
  obtain ⟨i1, j1, t1, e1, e2, e3⟩ := C06_strip_decomposition (slice b 0 8)
  obtain ⟨i2, j2, t2, e4, e5, e6⟩ := C06_strip_decomposition (slice b 24 32)
  have s1 : decodeMagicString (slice b 0 8) = t1 := by
    conv => lhs; rw [e1]
    exact stripNulls_spec _ _ _ e2 e3
  have s2 : decodeMagicString (slice b 24 32) = t2 := by
    conv => lhs; rw [e4]
    exact stripNulls_spec _ _ _ e5 e6
  have l1 : (slice b 0 8).length = 8 := by simp [slice]; omega
  have l2 : (slice b 24 32).length = 8 := by simp [slice]; omega
  refine ⟨slice b 0 8, slice b 24 32, i1, j1, i2, j2, l1, l2, ?_, ?_, ?_, ?_, ?_, ?_, hok, ?_⟩
  · rw [s1]; exact e1
  · rw [s1]; exact e2
  · rw [s1]; exact e3
  · rw [s2]; exact e4
  · rw [s2]; exact e5
  · rw [s2]; exact e6
  · obtain ⟨_, hx9⟩ := nameAt_checksum hc
    obtain ⟨_, hx10⟩ := nameAt_codec hk
    rw [byteAt_iff] at h8 h9 h10 h11
    have h12 := (decodeUInt32_iff.1 h12).2.2
    have h16 := (decodeUInt32_iff.1 h16).2.2
    have h20 := (decodeUInt32_iff.1 h20).2.2
    have hp : ∀ s : Bytes, s.length = 8 → Spec.padded8 s = s := by
      intro s hs
      rw [Spec.padded8, List.take_append_of_le_length (by omega), List.take_of_length_le (by omega)]
    simp only [Spec.metaHeaderBytes, leBytes_decodeUInt8, ← h12, ← h16, ← h20, ← hx9, ← hx10, bitsValue_decodeBitfield, ← h8, ← h9,
      ← h10, ← h11, hp _ l1, hp _ l2]
    rw [slice_cat _ _ _ _ (by omega) (by omega), slice_cat _ _ _ _ (by omega) (by omega),
      slice_cat _ _ _ _ (by omega) (by omega), slice_cat _ _ _ _ (by omega) (by omega),
      slice_cat _ _ _ _ (by omega) (by omega), slice_cat _ _ _ _ (by omega) (by omega),
      slice_cat _ _ _ _ (by omega) (by omega), slice_cat _ _ _ _ (by omega) (by omega),
      slice_all _ _ (by omega)]

/-- C79: how the others are refused: ValueError for a wrong length, IndexError for an unknown checksum or codec number, ValueError for
a level above 9. -/
theorem C79_refused (b : Bytes) :
    (b.length ≠ 32 → MetadataHeader.decode b = .error .valueError) ∧
    (∀ k c l, b.length = 32 → b[9]? = some k → b[10]? = some c → b[11]? = some l →
      (9 ≤ k.toNat ∨ 2 ≤ c.toNat → MetadataHeader.decode b = .error .indexError) ∧
      (k.toNat < 9 → c.toNat < 2 → 9 < l.toNat → MetadataHeader.decode b = .error .valueError)) := by
  refine ⟨fun h => ?_, fun k c l hlen h9 h10 h11 => ?_⟩
  · unfold MetadataHeader.decode
    rw [if_pos h]
    rfl
  · exact ⟨(decode_32 hlen h9 h10 h11).1, (decode_32 hlen h9 h10 h11).2.1⟩

/-- C79: the string form of the options, all of which are reserved: only eight zeros are accepted. -/
theorem C79_reserved_options (o : List Char) :
    decodeMetadataOptions o = if o = ['0', '0', '0', '0', '0', '0', '0', '0'] then .ok () else .error .valueError := by
  unfold decodeMetadataOptions
  by_cases h : o.length = 8 ∧ ∀ c ∈ o, c = '0' ∨ c = '1'
  · rw [checkOptions_iff (u := ()) |>.2 h]
    obtain ⟨h8, hc⟩ := h
    obtain ⟨bs, rfl⟩ := bits_of_options o hc
    rw [List.length_map] at h8
    match bs, h8 with
    | [b0, b1, b2, b3, b4, b5, b6, b7], _ =>
      revert b0 b1 b2 b3 b4 b5 b6 b7
      decide
  · have h1 : checkOptions o = .error .valueError := by
      cases hc : checkOptions o with
      | ok u => exact absurd (checkOptions_iff.1 hc) h
      | error e =>
        unfold checkOptions at hc
        split at hc <;> cases hc
        rfl
    rw [h1, if_neg]
    · rfl
    · rintro rfl
      exact h (by decide)

/-! ### examples -/

/-- reserved option bits and NULs around the strings are read -/
example : MetadataHeader.decode ([0, 74, 83, 0, 0, 0, 0, 0] ++ [5, 1, 1, 9] ++ [1, 0, 0, 0] ++ [0, 1, 0, 0] ++ [2, 0, 0, 0] ++ [0, 0, 0, 0, 0, 0, 0, 0]) =
    .ok ⟨[74, 83], ['0', '0', '0', '0', '0', '1', '0', '1'], "adler32", "zlib", 9, 1, 256, 2, []⟩ := by decide
example : MetadataHeader.decode ([74, 83, 79, 78, 0, 0, 0, 0] ++ [0, 1, 1, 10] ++ List.replicate 20 0) = .error .valueError ∧
    MetadataHeader.decode ([74, 83, 79, 78, 0, 0, 0, 0] ++ [0, 9, 1, 6] ++ List.replicate 20 0) = .error .indexError ∧
    MetadataHeader.decode ([74, 83, 79, 78, 0, 0, 0, 0] ++ [0, 1, 2, 6] ++ List.replicate 20 0) = .error .indexError ∧
    MetadataHeader.decode (List.replicate 31 0) = .error .valueError := by decide
example : decodeMetadataOptions ['0', '0', '0', '0', '0', '0', '0', '1'] = .error .valueError := by decide

end Bloscpack
