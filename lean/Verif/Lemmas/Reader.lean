import Verif.Model.FileIO
import Verif.Spec.File
import Verif.Lemmas.MetaHeader
import Verif.Lemmas.Checksums
/-
What the reading functions do on a file with the documented layout.
-/
namespace Bloscpack
variable {μ : Type}

/-! ### lists of chunks -/

@[simp] theorem records_nil (f : Bytes → Bytes) : Spec.records f [] = [] := rfl
@[simp] theorem records_cons (f : Bytes → Bytes) (c : Bytes) (cs : List Bytes) :
    Spec.records f (c :: cs) = c ++ f c ++ Spec.records f cs := by simp [Spec.records]
theorem records_append (f : Bytes → Bytes) (a b : List Bytes) :
    Spec.records f (a ++ b) = Spec.records f a ++ Spec.records f b := by simp [Spec.records]

theorem positions_length (f : Bytes → Bytes) (s : Nat) (cs : List Bytes) : (Spec.positions f s cs).length = cs.length := by
  induction cs generalizing s with
  | nil => rfl
  | cons c cs ih => simp [Spec.positions, ih]

theorem positions_append (f : Bytes → Bytes) (s : Nat) (a b : List Bytes) :
    Spec.positions f s (a ++ b) = Spec.positions f s a ++ Spec.positions f (s + (Spec.records f a).length) b := by
  induction a generalizing s with
  | nil => simp [Spec.positions]
  | cons c cs ih => simp [Spec.positions, ih, Nat.add_assoc]

@[simp] theorem int64s_nil : Spec.int64s [] = [] := rfl
@[simp] theorem int64s_cons (o : Int) (os : List Int) : Spec.int64s (o :: os) = Spec.leBytes 8 o ++ Spec.int64s os := by
  simp [Spec.int64s]
theorem int64s_append (a b : List Int) : Spec.int64s (a ++ b) = Spec.int64s a ++ Spec.int64s b := by simp [Spec.int64s]
theorem int64s_length (l : List Int) : (Spec.int64s l).length = 8 * l.length := by
  induction l with
  | nil => rfl
  | cons o os ih => simp [ih, leBytes_length]; omega

/-! ### checksums of chunks -/

theorem function_none {hl : String → Bytes → Bytes} {impl : Hash} (hi : impl ∈ checksums hl) (h0 : impl.size = 0)
    (d : Bytes) : impl.function d = [] := by
  simp only [checksums, List.mem_cons, List.not_mem_nil, or_false] at hi
  rcases hi with rfl | rfl | rfl | rfl | rfl | rfl | rfl | rfl | rfl
  · rfl
  all_goals simp at h0

theorem doChecksum_eq {hl : String → Bytes → Bytes} {impl : Hash} (hi : impl ∈ checksums hl) (d : Bytes) :
    doChecksum impl d = impl.function d := by
  unfold doChecksum
  split
  · rfl
  · rw [function_none hi (by omega)]

/-- a compressed chunk whose length is the one recorded in its header -/
def Framed (c : Bytes) : Prop := 16 ≤ c.length ∧ leDecode (slice c 12 16) = c.length

theorem framed_of_decompress {E : Env μ} (L : E.Laws) {c d : Bytes} (h : E.decompress c = .ok d) : Framed c :=
  L.decompress_length c d h

theorem framed_of_compress {E : Env μ} (L : E.Laws) {c d : Bytes} {a : BloscArgs} (h : E.compress d a = .ok c) :
    Framed c := ⟨(L.compress_header d a c h).1, (L.compress_header d a c h).2.2⟩

theorem decodeBloscHeader_ctbytes {b : Bytes} (h : 16 ≤ b.length) :
    ∃ bh, decodeBloscHeader b = .ok bh ∧ bh.ctbytes = leDecode (slice b 12 16) := by
  have hb : ∀ i, i < 16 → ∃ x, byteAt b i = .ok x := by
    intro i hi
    exact ⟨b[i]'(by omega), by simp [byteAt, List.getElem?_eq_getElem (show i < b.length by omega)]⟩
  have hu : ∀ i, i + 4 ≤ 16 → decodeUInt32 (slice b i (i + 4)) = .ok (leDecode (slice b i (i + 4))) := by
    intro i hi
    refine if_pos ?_
    rw [slice]; simp; omega
  obtain ⟨x0, h0⟩ := hb 0 (by omega)
  obtain ⟨x1, h1⟩ := hb 1 (by omega)
  obtain ⟨x2, h2⟩ := hb 2 (by omega)
  obtain ⟨x3, h3⟩ := hb 3 (by omega)
  have h4 := hu 4 (by omega)
  have h5 := hu 8 (by omega)
  have h6 := hu 12 (by omega)
  simp only [decodeBloscHeader, h0, h1, h2, h3, h4, h5, h6, Except.ok_bind']
  exact ⟨_, rfl, rfl⟩

theorem decodeBloscHeader_short {b : Bytes} (h : b.length < 16) : ∃ e, decodeBloscHeader b = .error e := by
  cases hd : decodeBloscHeader b with
  | error e => exact ⟨e, rfl⟩
  | ok bh =>
    exfalso
    simp only [decodeBloscHeader, Except.bind_ok_iff] at hd
    obtain ⟨_, _, _, _, _, _, _, _, _, _, _, _, ct, hct, _⟩ := hd
    have := congrArg List.length (decodeUInt32_iff.1 hct).2.2
    rw [leBytes_length, slice] at this
    simp at this
    omega

/-! ### chunks -/

/-- reading a chunk: the general form, for whatever follows the first 16 bytes -/
theorem readChunk_general (impl : Hash) (A R : Bytes) (l) (h16 : 16 ≤ R.length) :
    ∃ bh, decodeBloscHeader (R.take 16) = .ok bh ∧ bh.ctbytes = leDecode (slice R 12 16) ∧
    readCompressedChunk impl (Z A R l) =
      (let n := leDecode (slice R 12 16)
       if impl.size > 0 then
        (.ok (R.take n, bh, some ((R.drop n).take impl.size)),
          Z (A ++ R.take n ++ (R.drop n).take impl.size) ((R.drop n).drop impl.size) l)
       else (.ok (R.take n, bh, none), Z (A ++ R.take n) (R.drop n) l)) := by
  obtain ⟨bh, h1, h2⟩ := decodeBloscHeader_ctbytes (b := R.take 16) (by simp; omega)
  have hs : slice (R.take 16) 12 16 = slice R 12 16 := by
    conv => rhs; rw [← List.take_append_drop 16 R]
    rw [slice_append_left]; simp; omega
  rw [hs] at h2
  refine ⟨bh, h1, h2, ?_⟩
  have hsk : fpSeekRel (-(BLOSC_HEADER_LENGTH : Int)) (Z (A ++ R.take 16) (R.drop 16) l) = (.ok (), Z A R l) := by
    apply fpSeekRel_Z
    · simp
    · simp [BLOSC_HEADER_LENGTH]; omega
  have hrd : fpRead BLOSC_HEADER_LENGTH (Z A R l) = (.ok (R.take 16), Z (A ++ R.take 16) (R.drop 16) l) :=
    fpRead_Z A R l 16
  unfold readCompressedChunk
  rw [Proc.bind_of_ok hrd, Proc.bind_of_ok (Proc.ofExcept_apply _ _ |>.trans (by rw [h1])),
    Proc.bind_of_ok hsk, h2, Proc.bind_of_ok (fpRead_Z A R l _)]
  by_cases hsz : impl.size > 0
  · simp only [if_pos hsz]
    rw [Proc.bind_of_ok (fpRead_Z _ _ l _)]
    rfl
  · simp only [if_neg hsz]
    rfl

theorem readChunk_short (impl : Hash) (A R : Bytes) (l) (h16 : R.length < 16) :
    ∃ e s, readCompressedChunk impl (Z A R l) = (.error e, s) := by
  obtain ⟨e, he⟩ := decodeBloscHeader_short (b := R.take 16) (by simp; omega)
  have hrd : fpRead BLOSC_HEADER_LENGTH (Z A R l) = (.ok (R.take 16), Z (A ++ R.take 16) (R.drop 16) l) :=
    fpRead_Z A R l 16
  refine ⟨e, Z (A ++ R.take 16) (R.drop 16) l, ?_⟩
  unfold readCompressedChunk
  rw [Proc.bind_of_ok hrd,
    Proc.bind_of_error (Proc.ofExcept_apply _ _ |>.trans (by rw [he]))]

/-- the digest as the reader returns it -/
def readDigest (impl : Hash) (c : Bytes) : Option Bytes := if impl.size > 0 then some (impl.function c) else none

theorem readChunk_exact {E : Env μ} (L : E.Laws) {impl : Hash} (hi : impl ∈ checksums E.hashlib) (A c R : Bytes) (l)
    (hc : Framed c) : ∃ bh : BloscHeader, bh.ctbytes = c.length ∧ readCompressedChunk impl (Z A (c ++ impl.function c ++ R) l) =
      (.ok (c, bh, readDigest impl c), Z (A ++ (c ++ impl.function c)) R l) := by
  obtain ⟨hc1, hc2⟩ := hc
  have hs : slice (c ++ impl.function c ++ R) 12 16 = slice c 12 16 := by
    rw [List.append_assoc, slice_append_left _ _ _ _ hc1]
  obtain ⟨bh, h1, h2, h3⟩ := readChunk_general impl A (c ++ impl.function c ++ R) l (by simp; omega)
  rw [hs, hc2] at h2 h3
  refine ⟨bh, h2, ?_⟩
  rw [h3]
  have hd := Hash.size_eq L hi c
  unfold readDigest
  by_cases hsz : impl.size > 0
  · simp [if_pos hsz, hd]
  · have : impl.function c = [] := function_none hi (by omega) c
    simp [this, hsz]

theorem checkDigest_ok (impl : Hash) (c : Bytes) : checkDigest impl c (readDigest impl c) = .ok () := by
  unfold readDigest
  split <;> simp [checkDigest]

/-- one round of the unpack loop over a well-formed chunk -/
theorem unpackLoop_step {E : Env μ} (L : E.Laws) {h : BloscpackHeader} {impl : Hash} (hi : impl ∈ checksums E.hashlib)
    (A c R : Bytes) (l) (d O : Bytes) (lo) (hc : E.decompress c = .ok d) (fuel i : Nat) :
    ∃ lo', unpackLoop (compressedFPSource h impl) (plainFPSinkPut E) (fuel + 1) i
        (Z A (c ++ impl.function c ++ R) l, Z O [] lo) =
      unpackLoop (compressedFPSource h impl) (plainFPSinkPut E) fuel (i + 1)
        (Z (A ++ (c ++ impl.function c)) R l, Z (O ++ d) [] lo') := by
  obtain ⟨bh, -, hr⟩ := readChunk_exact L hi A c R l (framed_of_decompress L hc)
  refine ⟨lo ++ [(O.length, d)], ?_⟩
  have hn : (compressedFPSource h impl).next i (Z A (c ++ impl.function c ++ R) l) =
      (.ok (c, readDigest impl c), Z (A ++ (c ++ impl.function c)) R l) := by
    show (readCompressedChunk impl >>= fun r => Proc.pure (r.1, r.2.2)) _ = _
    rw [Proc.bind_of_ok hr]; rfl
  have hp : plainFPSinkPut E c (Z O [] lo) = (.ok (), Z (O ++ d) [] (lo ++ [(O.length, d)])) := by
    unfold plainFPSinkPut
    rw [Proc.bind_of_ok (Proc.ofExcept_apply _ _ |>.trans (by rw [hc])), fpWrite_Z]
    simp
  show (Proc.onFst ((compressedFPSource h impl).next i) >>= _) _ = _
  rw [Proc.bind_of_ok (a := (c, readDigest impl c)) (s' := (Z (A ++ (c ++ impl.function c)) R l, Z O [] lo))
    (by rw [Proc.onFst_apply, hn])]
  have hi' : (compressedFPSource h impl).checksumImpl = impl := rfl
  rw [hi', Proc.bind_of_ok (Proc.ofExcept_apply _ _ |>.trans (by rw [checkDigest_ok])),
    Proc.bind_of_ok (a := ()) (s' := (Z (A ++ (c ++ impl.function c)) R l, Z (O ++ d) [] (lo ++ [(O.length, d)])))
    (by rw [Proc.onSnd_apply, hp])]

/-- the unpack loop over well-formed chunks -/
theorem unpackLoop_records {E : Env μ} (L : E.Laws) {h : BloscpackHeader} {impl : Hash} (hi : impl ∈ checksums E.hashlib)
    (chs : List (Bytes × Bytes)) (hch : ∀ p ∈ chs, E.decompress p.1 = .ok p.2) (A R : Bytes) (l) (O : Bytes) (lo)
    (fuel i : Nat) :
    ∃ lo', unpackLoop (compressedFPSource h impl) (plainFPSinkPut E) (chs.length + fuel) i
        (Z A (Spec.records impl.function (chs.map (·.1)) ++ R) l, Z O [] lo) =
      unpackLoop (compressedFPSource h impl) (plainFPSinkPut E) fuel (i + chs.length)
        (Z (A ++ Spec.records impl.function (chs.map (·.1))) R l, Z (O ++ (chs.map (·.2)).flatten) [] lo') := by
  induction chs generalizing A O lo i with
  | nil => exact ⟨lo, by simp⟩
  | cons p ps ih =>
    obtain ⟨lo1, h1⟩ := unpackLoop_step L (h := h) hi A p.1 (Spec.records impl.function (ps.map (·.1)) ++ R) l p.2 O lo
      (hch p List.mem_cons_self) (ps.length + fuel) i
    obtain ⟨lo2, h2⟩ := ih (fun q hq => hch q (List.mem_cons_of_mem _ hq)) (A ++ (p.1 ++ impl.function p.1)) (O ++ p.2) lo1
      (i + 1)
    refine ⟨lo2, ?_⟩
    have e1 : (p :: ps).length + fuel = ps.length + fuel + 1 := by simp; omega
    have e2 : i + (p :: ps).length = i + 1 + ps.length := by simp; omega
    rw [e1, e2, List.map_cons, List.map_cons, records_cons]
    rw [List.append_assoc _ (Spec.records _ _) R, h1, h2]
    simp [List.append_assoc]

/-! ### metadata section -/

theorem Section.lookup {E : Env μ} {s : Section μ} (hv : s.Valid E) :
    checksumLookup E.hashlib s.header.meta_checksum = .ok (s.impl E) ∧ s.impl E ∈ checksums E.hashlib ∧
    (s.impl E).name = s.header.meta_checksum := by
  obtain ⟨h, h1, -⟩ := checksumLookup_of (hl := E.hashlib) hv.ok.2.2.1
  have : s.impl E = h := by simp [Section.impl, h1]
  rw [this]
  exact ⟨h1, checksumLookup_mem h1⟩

theorem Section.decode_header {E : Env μ} {s : Section μ} (hv : s.Valid E) :
    MetadataHeader.decode s.header.bytes = .ok s.header := by
  rw [MetadataHeader.decode_bytes hv.ok, hv.magic, hv.user,
    strip_padded8 0 0 [74, 83, 79, 78] (by decide) (by decide) (by decide) (by decide),
    strip_padded8 0 0 [] (by decide) (by decide) (by decide) (by decide)]
  have : ({ s.header with magic_format := [74, 83, 79, 78], user_codec := [] } : MetadataHeader) = s.header := by
    cases hh : s.header with
    | mk => have := hv.magic; have := hv.user; simp_all
  rw [this]
  exact (MetadataHeader.new_iff _ _).2 ⟨hv.ok, rfl⟩

theorem Section.bytes_length {E : Env μ} (L : E.Laws) {s : Section μ} (hv : s.Valid E) :
    ((s.bytes E).length : Int) = 32 + s.header.max_meta_size + (s.impl E).size := by
  have h1 := Hash.size_eq L (Section.lookup hv).2.1 s.body
  have h2 := hv.size
  have h3 := hv.fits
  simp [Section.bytes, Section.prealloc, MetadataHeader.bytes_length, h1]
  omega

theorem Section.loads {E : Env μ} {s : Section μ} (hv : s.Valid E) : loadMetadata E s.header s.body = .ok s.metadata := by
  have hm : serializerLookup s.header.magic_format = .ok () := by rw [hv.magic]; decide
  unfold loadMetadata
  rw [hm]
  rcases hv.load with ⟨h1, h2⟩ | ⟨h1, raw, h2, h3⟩
  · simp [h1, h2]
  · simp [h1, codecDecompress, h2, h3]

theorem readMetadata_section {E : Env μ} (L : E.Laws) {s : Section μ} (hv : s.Valid E) (A R : Bytes) (l) :
    readMetadata E (Z A (s.bytes E ++ R) l) = (.ok (s.metadata, s.header), Z (A ++ s.bytes E) R l) := by
  obtain ⟨hl1, hl2, hl3⟩ := Section.lookup hv
  have h1 := hv.size
  have h2 := hv.fits
  have h3 := Hash.size_eq L hl2 s.body
  have e1 : fpRead METADATA_HEADER_LENGTH (Z A (s.bytes E ++ R) l) =
      (.ok s.header.bytes, Z (A ++ s.header.bytes)
        (s.body ++ (List.replicate s.prealloc 0 ++ ((s.impl E).function s.body ++ R))) l) := by
    rw [show s.bytes E ++ R = s.header.bytes ++
      (s.body ++ (List.replicate s.prealloc 0 ++ ((s.impl E).function s.body ++ R))) by simp [Section.bytes]]
    exact fpRead_exact _ _ _ _ _ (by rw [MetadataHeader.bytes_length]; rfl)
  have e3 := fpRead_exact (A ++ s.header.bytes) s.body
    (List.replicate s.prealloc 0 ++ ((s.impl E).function s.body ++ R)) l s.header.meta_comp_size h1
  have e4 : fpSeekRel (s.header.max_meta_size - s.header.meta_comp_size) (Z (A ++ s.header.bytes ++ s.body)
      (List.replicate s.prealloc 0 ++ ((s.impl E).function s.body ++ R)) l) =
      (.ok (), Z (A ++ s.header.bytes ++ s.body ++ List.replicate s.prealloc 0) ((s.impl E).function s.body ++ R) l) := by
    apply fpSeekRel_Z
    · simp
    · simp [Section.prealloc]; omega
  unfold readMetadata
  rw [Proc.bind_of_ok e1, Proc.bind_of_ok (Proc.ofExcept_apply _ _ |>.trans (by rw [Section.decode_header hv])),
    Proc.bind_of_ok e3, Proc.bind_of_ok e4]
  by_cases hn : s.header.meta_checksum ≠ "None"
  · rw [if_pos hn, Proc.bind_of_ok (Proc.ofExcept_apply _ _ |>.trans (by rw [hl1])),
      Proc.bind_of_ok (fpRead_exact _ _ _ _ _ (by rw [h3])),
      Proc.bind_of_ok (Proc.raiseIf_neg (by simp) _ _),
      Proc.bind_of_ok (Proc.ofExcept_apply _ _ |>.trans (by rw [Section.loads hv]))]
    simp [Section.bytes]
  · rw [if_neg hn, Proc.bind_of_ok (Proc.ofExcept_apply _ _ |>.trans (by rw [Section.loads hv]))]
    have hz : (s.impl E).function s.body = [] := by
      apply function_none hl2
      rw [Hash.size_zero hl2, hl3]
      exact Decidable.not_not.1 hn
    simp [Section.bytes, hz]

/-! ### offsets -/

theorem decodeOffsets_ok (n : Nat) (raw : Bytes) (h : 8 * n ≤ raw.length) :
    ∃ os, decodeOffsets raw n = .ok os ∧ os.length = n := by
  induction n generalizing raw with
  | zero => exact ⟨[], rfl, rfl⟩
  | succ n ih =>
    obtain ⟨os, h1, h2⟩ := ih (raw.drop 8) (by simp; omega)
    obtain ⟨v, hv⟩ : ∃ v, decodeInt64 (raw.take 8) = .ok v := ⟨_, if_pos (by simp; omega)⟩
    refine ⟨v :: os, ?_, by simp [h2]⟩
    simp only [decodeOffsets, hv, Except.ok_bind', h1, Except.pure_eq]

theorem decodeOffsets_short (n : Nat) (raw : Bytes) (h : raw.length < 8 * n) :
    ∃ e, decodeOffsets raw n = .error e := by
  induction n generalizing raw with
  | zero => omega
  | succ n ih =>
    by_cases h8 : (raw.take 8).length = 8
    · obtain ⟨e, he⟩ := ih (raw.drop 8) (by simp at h8 ⊢; omega)
      obtain ⟨v, hv⟩ : ∃ v, decodeInt64 (raw.take 8) = .ok v := ⟨_, if_pos h8⟩
      exact ⟨e, by simp only [decodeOffsets, hv, Except.ok_bind', he, Except.error_bind']⟩
    · have : decodeInt64 (raw.take 8) = .error .structError := if_neg h8
      exact ⟨.structError, by simp only [decodeOffsets, this, Except.error_bind']⟩

/-- offsets that fit the field decode to themselves -/
theorem decodeOffsets_int64s (os : List Int) (hos : ∀ o ∈ os, -2 ^ 63 ≤ o ∧ o ≤ 2 ^ 63 - 1) (R : Bytes) :
    decodeOffsets (Spec.int64s os ++ R) os.length = .ok os := by
  induction os with
  | nil => rfl
  | cons o os ih =>
    have h1 := hos o List.mem_cons_self
    have h2 : decodeInt64 (Spec.leBytes 8 o) = .ok o := decodeInt64_iff.2 ⟨h1.1, h1.2, rfl⟩
    have hl := leBytes_length 8 o
    simp only [int64s_cons, List.length_cons, decodeOffsets, List.append_assoc]
    rw [List.take_append_of_le_length (by omega), List.take_of_length_le (by omega), h2, List.drop_append,
      List.drop_of_length_le (by omega), hl]
    simp only [Except.ok_bind', Nat.sub_self, List.drop_zero, List.nil_append,
      ih (fun o ho => hos o (List.mem_cons_of_mem _ ho))]
    rfl

theorem readOffsets_ok {h : BloscpackHeader} (hn : 0 ≤ h.nchunks) (hm : 0 ≤ h.max_app_chunks) (A O R : Bytes) (l)
    (hO : O.length = offsetsLen h) (hb : offsetsLen h < 2 ^ 63) :
    ∃ os, readOffsets h (Z A (O ++ R) l) = (.ok os, Z (A ++ O) R l) ∧
      (h.offsets = true → decodeOffsets O h.nchunks.toNat = .ok os) ∧ (h.offsets = false → os = []) ∧
      os.length = if h.offsets then h.nchunks.toNat else 0 := by
  unfold readOffsets offsetsLen at *
  cases ho : h.offsets with
  | false =>
    have : O = [] := by rw [ho] at hO; simpa using hO
    subst this
    exact ⟨[], by simp, by simp, by simp, by simp⟩
  | true =>
    rw [ho] at hO hb
    simp only [if_true] at hO hb ⊢
    have ht : h.totalProspectiveChunks = some (h.nchunks + h.max_app_chunks) := if_pos hn
    obtain ⟨os, h1, h2⟩ := decodeOffsets_ok h.nchunks.toNat O (by omega)
    refine ⟨os, ?_, fun _ => h1, by simp, h2⟩
    rw [ht]
    simp only
    rw [Proc.bind_of_ok (Proc.raiseIf_neg (by omega) _ _), Proc.bind_of_ok (fpRead_exact A O R l _ (by omega))]
    simp [h1]

/-! ### the beginning of a file -/

theorem readHeader_ok {h : BloscpackHeader} (hok : h.OK) (hv : h.format_version = 3) (A R : Bytes) (l) :
    readBloscpackHeader (Z A (h.bytes ++ R) l) = (.ok h, Z (A ++ h.bytes) R l) := by
  unfold readBloscpackHeader
  rw [Proc.bind_of_ok (fpRead_exact A h.bytes R l _ (by rw [h.bytes_length]; rfl)),
    Proc.bind_of_ok (Proc.ofExcept_apply _ _ |>.trans (by rw [BloscpackHeader.decode_bytes hok])),
    Proc.bind_of_ok (Proc.raiseIf_neg (by simp [hv, FORMAT_VERSION]) _ _)]
  rfl

theorem File.lookup {E : Env μ} {F : File μ} (hv : F.Pre E) :
    F.header.checksumImpl E = .ok (F.impl E) ∧ F.impl E ∈ checksums E.hashlib ∧
    (F.impl E).name = F.header.checksum ∧ (F.impl E).size = Spec.digestSize F.header.checksum := by
  obtain ⟨h, h1, h2, h3⟩ := checksumLookup_of (hl := E.hashlib) hv.ok.2.1
  have : F.impl E = h := by simp [File.impl, BloscpackHeader.checksumImpl, h1]
  rw [this]
  exact ⟨h1, (checksumLookup_mem h1).1, h2, h3⟩

theorem readBeginning_file {E : Env μ} (L : E.Laws) {F : File μ} (hv : F.Pre E) (R : Bytes) (l) :
    ∃ os, readBeginning E (Z [] (F.front E ++ R) l) =
      (.ok (F.header, F.metadata, F.sec.map (·.header), os), Z (F.front E) R l) ∧
      (F.header.offsets = true → decodeOffsets F.offsets F.header.nchunks.toNat = .ok os) ∧
      (F.header.offsets = false → os = []) := by
  have hn : 0 ≤ F.header.nchunks := by have := hv.nchunks_le; omega
  have hm : 0 ≤ F.header.max_app_chunks := hv.ok.2.2.2.2.2.2.1.1
  obtain ⟨os, h1, h2, h3, -⟩ := readOffsets_ok hn hm (F.header.bytes ++ F.secBytes E) F.offsets R l hv.offsets_len hv.offsets_small
  refine ⟨os, ?_, h2, h3⟩
  have hf : F.front E ++ R = F.header.bytes ++ (F.secBytes E ++ (F.offsets ++ R)) := by simp [File.front]
  unfold readBeginning
  rw [hf, Proc.bind_of_ok (readHeader_ok hv.ok hv.version [] _ l)]
  have hflag := hv.meta_flag
  cases hs : F.sec with
  | none =>
    rw [hs] at hflag
    have hb : F.secBytes E = [] := by simp [File.secBytes, hs]
    have hf2 : F.header.metadata = false := by simpa using hflag
    rw [hb] at h1 ⊢
    simp only [hf2]
    simp only [List.nil_append, List.append_nil] at h1 ⊢
    rw [Proc.bind_of_ok (a := (none, none)) (s' := Z F.header.bytes (F.offsets ++ R) l) (by simp),
      Proc.bind_of_ok h1]
    simp [File.metadata, hs, File.front, hb]
  | some s =>
    rw [hs] at hflag
    have hb : F.secBytes E = s.bytes E := by simp [File.secBytes, hs]
    have hf2 : F.header.metadata = true := by simpa using hflag
    rw [hb] at h1 ⊢
    simp only [hf2, if_true, List.nil_append]
    have hr := readMetadata_section L (hv.sec_ok s hs) F.header.bytes (F.offsets ++ R) l
    rw [Proc.bind_of_ok (a := (s.metadata, some s.header)) (s' := Z (F.header.bytes ++ s.bytes E) (F.offsets ++ R) l)
      (by rw [Proc.bind_of_ok hr]; rfl), Proc.bind_of_ok h1]
    simp [File.metadata, hs, File.front, hb]

/-- unpacking a readable file gives its data and metadata -/
theorem unpackFrom_file {E : Env μ} (L : E.Laws) {F : File μ} (hv : F.Valid E) :
    unpackFrom E (F.bytes E) = (.ok F.metadata, F.data) := by
  obtain ⟨os, h1, -⟩ := readBeginning_file L hv.toPre (F.body E ++ F.junk) []
  obtain ⟨hl1, hl2, -⟩ := File.lookup hv.toPre
  unfold unpackFrom unpackFP
  have hz : ({ data := F.bytes E } : FP) = Z [] (F.front E ++ (F.body E ++ F.junk)) [] := rfl
  rw [hz, h1]
  simp only [hl1]
  obtain ⟨lo, h2⟩ := unpackLoop_records L (h := F.header) hl2 F.chunks hv.chunks_ok (F.front E) F.junk [] [] [] 0 0
  have hn : (compressedFPSource F.header (F.impl E)).nchunks.toNat = F.chunks.length + 0 := by
    show F.header.nchunks.toNat = _
    rw [hv.nchunks]; omega
  have ho : ({ data := [] } : FP) = Z [] [] [] := rfl
  unfold unpack
  rw [hn, ho]
  unfold File.body
  rw [h2]
  simp [unpackLoop, Except.map, File.data]

end Bloscpack
