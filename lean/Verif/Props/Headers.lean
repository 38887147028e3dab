import Verif.Lemmas.MetaHeader
/-
C04, C05: bloscpack header. C06: metadata header. C50: blosc chunk headers.
The constraints and layouts are in Verif/Spec/Header.lean.
-/
namespace Bloscpack

/-- A header with ordinary values, used as the example. -/
def exampleHeader : BloscpackHeader := ⟨3, true, false, "adler32", 8, 1048576, 1024, 7, 70⟩

/-- C04: the constructor accepts exactly the headers whose fields meet the documented constraints; such a header
encodes to the 32 documented bytes, and they decode to it. -/
theorem C04_header_roundtrip (version : Int) (offsets metadata : Bool) (checksum : String)
    (typesize chunkSize lastChunk nchunks maxApp : Int) :
    let h : BloscpackHeader := ⟨version, offsets, metadata, checksum, typesize, chunkSize, lastChunk, nchunks, maxApp⟩
    (h.new = .ok h ↔ Spec.HeaderFieldsOK version typesize chunkSize lastChunk nchunks maxApp checksum) ∧
    (Spec.HeaderFieldsOK version typesize chunkSize lastChunk nchunks maxApp checksum →
      ∃ bytes, h.encode = .ok bytes ∧ bytes.length = 32 ∧
        bytes = Spec.headerBytes version offsets metadata checksum typesize chunkSize lastChunk nchunks maxApp ∧
        BloscpackHeader.decode bytes = .ok h) := by
  intro h
  refine ⟨?_, fun hok => ⟨h.bytes, BloscpackHeader.encode_ok hok, h.bytes_length, rfl,
    BloscpackHeader.decode_bytes hok⟩⟩
  rw [BloscpackHeader.new_iff]
  exact ⟨fun hh => hh.1, fun hh => ⟨hh, rfl⟩⟩

example : exampleHeader.new = .ok exampleHeader ∧ exampleHeader.encode = .ok
    [98, 108, 112, 107, 3, 1, 1, 8, 0, 0, 16, 0, 0, 4, 0, 0, 7, 0, 0, 0, 0, 0, 0, 0, 70, 0, 0, 0, 0, 0, 0, 0] := by decide

/-- C05: whatever decodes is 32 bytes, has the magic, meets every constraint, is the documented encoding of the
decoded header, and encodes back to the same bytes. -/
theorem C05_header_strict (b : Bytes) (h : BloscpackHeader) (hd : BloscpackHeader.decode b = .ok h) :
    b.length = 32 ∧ b.take 4 = [0x62, 0x6c, 0x70, 0x6b] ∧
    Spec.HeaderFieldsOK h.format_version h.typesize h.chunk_size h.last_chunk h.nchunks h.max_app_chunks h.checksum ∧
    b = Spec.headerBytes h.format_version h.offsets h.metadata h.checksum h.typesize h.chunk_size h.last_chunk
      h.nchunks h.max_app_chunks ∧
    h.encode = .ok b := by
  obtain ⟨hok, rfl⟩ := (BloscpackHeader.decode_iff b h).1 hd
  refine ⟨h.bytes_length, ?_, hok, rfl, BloscpackHeader.encode_ok hok⟩
  simp [BloscpackHeader.bytes, Spec.headerBytes]

/-- C05: no two different buffers decode to the same header. -/
theorem C05_header_injective (b b' : Bytes) (h : BloscpackHeader) (h1 : BloscpackHeader.decode b = .ok h)
    (h2 : BloscpackHeader.decode b' = .ok h) : b = b' := by
  rw [((BloscpackHeader.decode_iff b h).1 h1).2, ((BloscpackHeader.decode_iff b' h).1 h2).2]

-- a header decodes; one with a reserved option bit, a bad checksum number or a last chunk larger than the chunk does not
example : BloscpackHeader.decode
    [98, 108, 112, 107, 3, 1, 1, 8, 0, 0, 16, 0, 0, 4, 0, 0, 7, 0, 0, 0, 0, 0, 0, 0, 70, 0, 0, 0, 0, 0, 0, 0] =
    .ok exampleHeader := by decide
example : (∃ e, BloscpackHeader.decode
    [98, 108, 112, 107, 3, 4, 1, 8, 0, 0, 16, 0, 0, 4, 0, 0, 7, 0, 0, 0, 0, 0, 0, 0, 70, 0, 0, 0, 0, 0, 0, 0] = .error e) ∧
    (∃ e, BloscpackHeader.decode
    [98, 108, 112, 107, 3, 1, 9, 8, 0, 0, 16, 0, 0, 4, 0, 0, 7, 0, 0, 0, 0, 0, 0, 0, 70, 0, 0, 0, 0, 0, 0, 0] = .error e) ∧
    (∃ e, BloscpackHeader.decode
    [98, 108, 112, 107, 3, 1, 1, 8, 0, 0, 16, 0, 0, 4, 0, 1, 7, 0, 0, 0, 0, 0, 0, 0, 70, 0, 0, 0, 0, 0, 0, 0] = .error e) :=
  ⟨⟨.valueError, by decide⟩, ⟨.indexError, by decide⟩, ⟨.valueError, by decide⟩⟩

/-! ### C06 -/

/-- A metadata header with ordinary values, used as the example. -/
def exampleMetaHeader : MetadataHeader :=
  ⟨[74, 83, 79, 78], ['0', '0', '0', '0', '0', '0', '0', '0'], "adler32", "zlib", 6, 50, 500, 40, []⟩

/-- C06: the constructor accepts exactly the documented field values; they encode to the 32 documented bytes, which
decode to a header with the same fields, the two strings stripped of surrounding NULs. -/
theorem C06_meta_header_roundtrip (magic : Bytes) (options : List Char) (checksum codec : String)
    (level size maxSize compSize : Int) (userCodec : Bytes) :
    let h : MetadataHeader := ⟨magic, options, checksum, codec, level, size, maxSize, compSize, userCodec⟩
    (h.new = .ok h ↔ Spec.MetaFieldsOK magic options checksum codec level size maxSize compSize userCodec) ∧
    (Spec.MetaFieldsOK magic options checksum codec level size maxSize compSize userCodec →
      ∃ bytes, h.encode = .ok bytes ∧ bytes.length = 32 ∧
        bytes = Spec.metaHeaderBytes magic options checksum codec level size maxSize compSize userCodec ∧
        ∀ (a b c d : Nat) (magic' userCodec' : Bytes),
          magic = List.replicate a 0 ++ magic' ++ List.replicate b 0 →
          magic'.head? ≠ some 0 → magic'.getLast? ≠ some 0 →
          userCodec = List.replicate c 0 ++ userCodec' ++ List.replicate d 0 →
          userCodec'.head? ≠ some 0 → userCodec'.getLast? ≠ some 0 →
          MetadataHeader.decode bytes = .ok { h with magic_format := magic', user_codec := userCodec' }) := by
  intro h
  constructor
  · rw [MetadataHeader.new_iff]
    exact ⟨fun hh => hh.1, fun hh => ⟨hh, rfl⟩⟩
  · intro hok
    refine ⟨h.bytes, MetadataHeader.encode_ok hok, h.bytes_length, rfl, ?_⟩
    intro a b c d m u hm hm1 hm2 hu hu1 hu2
    obtain ⟨h1, h2, h3, h4, h5, h6, h7, h8, h9⟩ := id hok
    rw [MetadataHeader.decode_bytes (h := h) hok, strip_padded8 a b m hm1 hm2 hm h1, strip_padded8 c d u hu1 hu2 hu h9,
      MetadataHeader.new_iff]
    refine ⟨⟨?_, h2, h3, h4, h5, h6, h7, h8, ?_⟩, rfl⟩
    · rw [hm] at h1; simp at h1 ⊢; omega
    · rw [hu] at h9; simp at h9 ⊢; omega

/-- C06, the ordinary case: without surrounding NULs the decoded header is the encoded one. -/
theorem C06_meta_header_roundtrip_exact (h : MetadataHeader) (hn : h.new = .ok h)
    (h1 : h.magic_format.head? ≠ some 0) (h2 : h.magic_format.getLast? ≠ some 0)
    (h3 : h.user_codec.head? ≠ some 0) (h4 : h.user_codec.getLast? ≠ some 0) :
    ∃ bytes, h.encode = .ok bytes ∧ bytes.length = 32 ∧ MetadataHeader.decode bytes = .ok h := by
  have hk := C06_meta_header_roundtrip h.magic_format h.meta_options h.meta_checksum h.meta_codec h.meta_level h.meta_size
    h.max_meta_size h.meta_comp_size h.user_codec
  obtain ⟨bytes, e1, e2, -, e3⟩ := hk.2 (hk.1.1 hn)
  exact ⟨bytes, e1, e2, e3 0 0 0 0 h.magic_format h.user_codec (by simp) h1 h2 (by simp) h3 h4⟩

/-- Every string is of the form used in C06. -/
theorem C06_strip_decomposition (s : Bytes) : ∃ (a b : Nat) (t : Bytes),
    s = List.replicate a 0 ++ t ++ List.replicate b 0 ∧ t.head? ≠ some 0 ∧ t.getLast? ≠ some 0 := by
  have key : ∀ s : Bytes, ∃ (a : Nat) (t : Bytes), s = List.replicate a 0 ++ t ∧ t.head? ≠ some 0 := by
    intro s
    induction s with
    | nil => exact ⟨0, [], rfl, by simp⟩
    | cons x xs ih =>
      by_cases hx : x = 0
      · obtain ⟨a, t, h1, h2⟩ := ih
        exact ⟨a + 1, t, by simp [List.replicate_succ, hx, ← h1], h2⟩
      · exact ⟨0, x :: xs, rfl, by simpa using hx⟩
  obtain ⟨a, t, h1, h2⟩ := key s
  obtain ⟨b, u, h3, h4⟩ := key t.reverse
  have ht : t = u.reverse ++ List.replicate b 0 := by
    have := congrArg List.reverse h3; simpa using this
  refine ⟨a, b, u.reverse, by rw [h1, ht]; simp, ?_, by simpa using h4⟩
  intro hc
  apply h2
  rw [ht, List.head?_append, hc]; rfl

example : exampleMetaHeader.new = .ok exampleMetaHeader ∧ exampleMetaHeader.magic_format.head? ≠ some 0 ∧
    (exampleMetaHeader.encode >>= MetadataHeader.decode) = .ok exampleMetaHeader := by decide
-- with surrounding NULs the strings are stripped
example : (MetadataHeader.encode { exampleMetaHeader with magic_format := [0, 74, 0] } >>= MetadataHeader.decode) =
    .ok { exampleMetaHeader with magic_format := [74] } := by decide

/-! ### C50 -/

/-- C50: any buffer of at least 16 bytes decodes to the documented fields: four single bytes and three little-endian
32-bit integers. -/
theorem C50_blosc_header (b0 b1 b2 b3 : UInt8) (nbytes blocksize ctbytes : Int) (rest : Bytes)
    (h1 : 0 ≤ nbytes ∧ nbytes < 2 ^ 32) (h2 : 0 ≤ blocksize ∧ blocksize < 2 ^ 32) (h3 : 0 ≤ ctbytes ∧ ctbytes < 2 ^ 32) :
    decodeBloscHeader ([b0, b1, b2, b3] ++ Spec.leBytes 4 nbytes ++ Spec.leBytes 4 blocksize ++ Spec.leBytes 4 ctbytes ++
      rest) = .ok ⟨b0.toNat, b1.toNat, b2.toNat, b3.toNat, nbytes, blocksize, ctbytes⟩ := by
  have e1 := decodeUInt32_iff.2 ⟨h1.1, by omega, (rfl : Spec.leBytes 4 nbytes = _)⟩
  have e2 := decodeUInt32_iff.2 ⟨h2.1, by omega, (rfl : Spec.leBytes 4 blocksize = _)⟩
  have e3 := decodeUInt32_iff.2 ⟨h3.1, by omega, (rfl : Spec.leBytes 4 ctbytes = _)⟩
  obtain ⟨a1, a2, a3, a4, ea⟩ := exists_leBytes_four nbytes
  obtain ⟨b1, b2, b3, b4, eb⟩ := exists_leBytes_four blocksize
  obtain ⟨c1, c2, c3, c4, ec⟩ := exists_leBytes_four ctbytes
  rw [ea] at e1; rw [eb] at e2; rw [ec] at e3
  rw [ea, eb, ec]
  simp only [decodeBloscHeader, byteAt, List.cons_append, List.nil_append, List.getElem?_cons_succ,
    List.getElem?_cons_zero, Except.ok_bind', slice, List.drop_succ_cons, List.drop_zero, Nat.reduceSub,
    List.take_succ_cons, List.take_zero, e1, e2, e3, decodeUInt8]
  rfl

/-- C50: a buffer shorter than 16 bytes is never accepted, and any other buffer is. -/
theorem C50_blosc_header_total (b : Bytes) : (∃ h, decodeBloscHeader b = .ok h) ↔ 16 ≤ b.length := by
  constructor
  · rintro ⟨h, hh⟩
    simp only [decodeBloscHeader, Except.bind_ok_iff] at hh
    obtain ⟨_, _, _, _, _, _, _, _, _, _, _, _, ct, hct, _⟩ := hh
    have := congrArg List.length (decodeUInt32_iff.1 hct).2.2
    rw [leBytes_length, slice] at this
    simp at this
    omega
  · intro hl
    have hb : ∀ i, i < 16 → ∃ x, byteAt b i = .ok x := by
      intro i hi
      exact ⟨b[i]'(by omega), by simp [byteAt, List.getElem?_eq_getElem (show i < b.length by omega)]⟩
    have hu : ∀ i, i + 4 ≤ 16 → ∃ x, decodeUInt32 (slice b i (i + 4)) = .ok x := by
      intro i hi
      refine ⟨_, if_pos ?_⟩
      rw [slice]; simp; omega
    obtain ⟨x0, h0⟩ := hb 0 (by omega)
    obtain ⟨x1, h1⟩ := hb 1 (by omega)
    obtain ⟨x2, h2⟩ := hb 2 (by omega)
    obtain ⟨x3, h3⟩ := hb 3 (by omega)
    obtain ⟨x4, h4⟩ := hu 4 (by omega)
    obtain ⟨x5, h5⟩ := hu 8 (by omega)
    obtain ⟨x6, h6⟩ := hu 12 (by omega)
    simp only [decodeBloscHeader, h0, h1, h2, h3, h4, h5, h6, Except.ok_bind']
    exact ⟨_, rfl⟩

theorem blosc_flags_table : ∀ n, n < 256 → decodeBloscFlags n =
    (match ["blosclz", "lz4", "snappy", "zlib", "zstd"][n / 32]? with
     | some c => .ok ⟨n.testBit 0, n.testBit 1, n.testBit 2, n.testBit 4, c⟩
     | none => .error .keyError) := by decide +kernel

/-- C50: the flags of every flag byte: bits 0, 1, 2 and 4, and the codec numbered by the top three bits, `KeyError` if
that number is not assigned. -/
theorem C50_blosc_flags (x : UInt8) : decodeBloscFlags x.toNat =
    (match ["blosclz", "lz4", "snappy", "zlib", "zstd"][x.toNat / 32]? with
     | some c => .ok ⟨x.toNat.testBit 0, x.toNat.testBit 1, x.toNat.testBit 2, x.toNat.testBit 4, c⟩
     | none => .error .keyError) := blosc_flags_table x.toNat x.toNat_lt

example : decodeBloscFlags 0x21 = .ok ⟨true, false, false, false, "lz4"⟩ ∧
    decodeBloscFlags 0xe0 = .error .keyError := by decide
example : decodeBloscHeader ([2, 1, 33, 8] ++ Spec.leBytes 4 1000 ++ Spec.leBytes 4 64 ++ Spec.leBytes 4 70000 ++ [9]) =
    .ok ⟨2, 1, 33, 8, 1000, 64, 70000⟩ := by decide

end Bloscpack
