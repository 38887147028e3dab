import Verif.Spec.Unreadable
import Verif.Props.Archive
import Verif.Props.Raises
/-!
C101: exactly why a byte string is not unpacked.
-/
namespace Bloscpack
variable {μ : Type}

/-! ### the metadata section -/

theorem metaTail_error_iff (E : Env μ) (h : MetadataHeader) (hck : h.meta_checksum ∈ Spec.checksumNames) (body : Bytes) (fp : FP)
    (e : Err) :
    (metaTail E h body fp).1 = .error e ↔
      (slice fp.data fp.pos (fp.pos + Spec.digestSize h.meta_checksum) ≠ Spec.digest E h.meta_checksum body ∧ e = .checksumMismatch) ∨
      (slice fp.data fp.pos (fp.pos + Spec.digestSize h.meta_checksum) = Spec.digest E h.meta_checksum body ∧
        loadMetadata E h body = .error e) := by
  unfold metaTail
  by_cases hn : h.meta_checksum = "None"
  · rw [if_neg (by simp [hn])]
    have h0 : Spec.digestSize "None" = 0 := by decide
    have h1 : Spec.digest E "None" body = [] := by simp [Spec.digest]
    have : slice fp.data fp.pos fp.pos = [] := by simp [slice]
    rw [hn, h0, h1, Nat.add_zero, this]
    cases hl : loadMetadata E h body <;> simp
  · rw [if_pos (by simpa using hn)]
    obtain ⟨impl, hi, -, hsz⟩ := checksumLookup_of (hl := E.hashlib) hck
    have hd := (digest_eq hi body).1
    rw [hi, ← hd, ← hsz]
    rw [Proc.bind_of_ok (Proc.ofExcept_apply _ _), Proc.bind_of_ok (fpRead_at fp impl.size)]
    by_cases hx : impl.function body = slice fp.data fp.pos (fp.pos + impl.size)
    · rw [Proc.bind_of_ok (Proc.raiseIf_neg (by simpa using hx) _ _), ← hx]
      cases hl : loadMetadata E h body <;> simp
    · rw [Proc.bind_of_error (Proc.raiseIf_pos (by simpa using hx) _ _)]
      have hx' : slice fp.data fp.pos (fp.pos + impl.size) ≠ impl.function body := fun h => hx h.symm
      simp [hx', eq_comm]

theorem loadMetadata_error_iff (E : Env μ) (h : MetadataHeader) (hco : h.meta_codec ∈ Spec.codecNames) (body : Bytes) (e : Err) :
    loadMetadata E h body = .error e ↔
      (h.meta_codec = "zlib" ∧ E.zdecompress body = .error e) ∨
      ∃ raw, (h.meta_codec = "None" ∧ raw = body ∨ h.meta_codec = "zlib" ∧ E.zdecompress body = .ok raw) ∧
        ((h.magic_format ≠ [74, 83, 79, 78] ∧ e = .keyError) ∨ (h.magic_format = [74, 83, 79, 78] ∧ E.loads raw = .error e)) := by
  have hor : h.meta_codec = "None" ∨ h.meta_codec = "zlib" := by simpa [Spec.codecNames] using hco
  have htail : ∀ raw, ((do serializerLookup h.magic_format; E.loads raw) : Except Err (Option μ)) = .error e ↔
      ((h.magic_format ≠ [74, 83, 79, 78] ∧ e = .keyError) ∨ (h.magic_format = [74, 83, 79, 78] ∧ E.loads raw = .error e)) := by
    intro raw
    unfold serializerLookup
    by_cases hm : h.magic_format = [74, 83, 79, 78]
    · rw [if_pos (by simp [serializersAvail, hm]), Except.ok_bind']
      simp [hm]
    · rw [if_neg (by simpa [serializersAvail] using hm), Except.error_bind']
      simp [hm, eq_comm]
  unfold loadMetadata
  rcases hor with hc | hc
  · rw [hc, if_neg (by decide), Except.ok_bind', htail]
    simp
  · rw [hc, if_pos (by decide)]
    have hz : codecDecompress E "zlib" body = E.zdecompress body := rfl
    rw [hz]
    cases hd : E.zdecompress body with
    | error e' => rw [Except.error_bind']; simp
    | ok raw => rw [Except.ok_bind', htail]; simp

/-- after the header of the metadata section was understood -/
theorem readMetadata_error_ok (E : Env μ) (fp : FP) (h : MetadataHeader)
    (hd : MetadataHeader.decode (slice fp.data fp.pos (fp.pos + 32)) = .ok h) (body : Bytes)
    (hb : body = slice fp.data (fp.pos + 32) (fp.pos + 32 + h.meta_comp_size.toNat)) (at_ : Int)
    (ha : at_ = fp.pos + 32 + body.length + h.max_meta_size - h.meta_comp_size) (e : Err) :
    (readMetadata E fp).1 = .error e ↔
      (fp.inMemory = false ∧ at_ < 0 ∧ e = .osError) ∨
      ((fp.inMemory = true ∨ 0 ≤ at_) ∧
        ((slice fp.data at_.toNat (at_.toNat + Spec.digestSize h.meta_checksum) ≠ Spec.digest E h.meta_checksum body ∧ e = .checksumMismatch) ∨
         (slice fp.data at_.toNat (at_.toNat + Spec.digestSize h.meta_checksum) = Spec.digest E h.meta_checksum body ∧
          loadMetadata E h body = .error e))) := by
  have hread : fpRead (METADATA_HEADER_LENGTH : Int) fp = _ := fpRead_at fp 32
  obtain ⟨hok, hlen⟩ := MetadataHeader.decode_ok hd
  have hcomp : fpRead h.meta_comp_size = fpRead (σ := FP) (h.meta_comp_size.toNat : Nat) := by
    have := hok.2.2.2.2.2.2.2.1.1
    rw [Int.toNat_of_nonneg this]
  rw [readMetadata_eq, Proc.bind_of_ok hread, Proc.bind_of_ok (Proc.ofExcept_apply _ _ |>.trans (by rw [hd])), hcomp,
    Proc.bind_of_ok (fpRead_at _ _)]
  simp only [hlen, ← hb]
  by_cases hs : fp.inMemory = true ∨ 0 ≤ at_
  · have hat : ((fp.pos + 32 + body.length : Nat) : Int) + (h.max_meta_size - h.meta_comp_size) = at_ := by omega
    rw [Proc.bind_of_ok (fpSeekRel_at _ _ (by simp only; rw [hat]; exact hs)), metaTail_error_iff E h hok.2.2.1]
    simp only [hat, hs, true_and]
    constructor
    · exact .inr
    · rintro (⟨h1, h2, -⟩ | h)
      · rcases hs with hs | hs
        · rw [h1] at hs; cases hs
        · omega
      · exact h
  · have h1 : fp.inMemory = false := by cases hm : fp.inMemory <;> simp_all
    have h2 : at_ < 0 := by
      have : ¬ 0 ≤ at_ := fun h => hs (.inr h)
      omega
    have hseek : fpSeekRel (h.max_meta_size - h.meta_comp_size) ({ fp with pos := fp.pos + 32 + body.length } : FP) =
        (.error .osError, { fp with pos := fp.pos + 32 + body.length }) := by
      rw [fpSeekRel_eq]; unfold FP.seekRel
      rw [if_pos ⟨by simp only; omega, h1⟩]
    rw [Proc.bind_of_error hseek]
    constructor
    · intro h; exact .inl ⟨h1, h2, (Except.error.inj h).symm⟩
    · rintro (⟨-, -, rfl⟩ | ⟨h, -⟩)
      · rfl
      · exact absurd h hs

/-- what is read from the 32 bytes of a metadata header -/
theorem metaHeader_decoded {m' u' b : Bytes} {o ck co lv sz mx cs} (hok' : Spec.MetaFieldsOK m' o ck co lv sz mx cs u') (hm8' : m'.length = 8)
    (hu8' : u'.length = 8) (hb : b = Spec.metaHeaderBytes m' o ck co lv sz mx cs u') :
    ∃ mg us, MetadataHeader.decode b = .ok ⟨mg, o, ck, co, lv, sz, mx, cs, us⟩ ∧
      ((∃ i j, m' = List.replicate i 0 ++ [74, 83, 79, 78] ++ List.replicate j 0) ↔ mg = [74, 83, 79, 78]) := by
  obtain ⟨k3, l3, t, e1, e2, e3⟩ := C06_strip_decomposition u'
  obtain ⟨k4, l4, w, f1, f2, f3⟩ := C06_strip_decomposition m'
  have hpad : ∀ v : Bytes, v.length = 8 → Spec.padded8 v = v := by
    intro v hv
    unfold Spec.padded8
    rw [List.take_left' hv]
  refine ⟨w, t, ?_, ?_⟩
  · rw [hb]
    have h1 := MetadataHeader.decode_bytes (h := ⟨m', o, ck, co, lv, sz, mx, cs, u'⟩) hok'
    rw [hpad m' hm8', hpad u' hu8'] at h1
    simp only [decodeMagicString] at h1
    rw [f1, e1, stripNulls_spec k4 l4 w f2 f3, stripNulls_spec k3 l3 t e2 e3, ← e1, ← f1] at h1
    refine Eq.trans h1 ((MetadataHeader.new_iff _ _).2 ⟨⟨?_, hok'.2.1, hok'.2.2.1, hok'.2.2.2.1, hok'.2.2.2.2.1, hok'.2.2.2.2.2.1,
      hok'.2.2.2.2.2.2.1, hok'.2.2.2.2.2.2.2.1, ?_⟩, rfl⟩)
    · have : m'.length = k4 + w.length + l4 := by rw [f1]; simp; omega
      simp only
      omega
    · have : u'.length = k3 + t.length + l3 := by rw [e1]; simp; omega
      simp only
      omega
  · constructor
    · rintro ⟨i', j', hm'⟩
      have e1 := stripNulls_spec k4 l4 w f2 f3
      rw [← f1, hm', stripNulls_spec i' j' _ (by decide) (by decide)] at e1
      exact e1.symm
    · rintro rfl; exact ⟨k4, l4, f1⟩

/-- exactly why a metadata section is refused -/
theorem readMetadata_error_at (E : Env μ) (fp : FP) (e : Err) :
    (readMetadata E fp).1 = .error e ↔ Spec.MetadataRefusedAt E fp.inMemory fp.data fp.pos e := by
  have hsl : (slice fp.data fp.pos (fp.pos + 32)).length = min 32 (fp.data.length - fp.pos) := by simp [slice]
  have hread : fpRead (METADATA_HEADER_LENGTH : Int) fp = _ := fpRead_at fp 32
  have hbad : ∀ e', MetadataHeader.decode (slice fp.data fp.pos (fp.pos + 32)) = .error e' → (readMetadata E fp).1 = .error e' := by
    intro e' h'
    rw [readMetadata_eq, Proc.bind_of_ok hread, Proc.bind_of_error (Proc.ofExcept_apply _ _ |>.trans (by rw [h']))]
  by_cases hlen : fp.data.length < fp.pos + 32
  · have h1 := hbad _ ((C79_refused _).1 (by rw [hsl]; omega))
    rw [h1]
    constructor
    · intro h; exact .inl ⟨hlen, (Except.error.inj h).symm⟩
    · rintro (⟨-, rfl⟩ | ⟨k, c, l, h2, -⟩ | ⟨m, u, o, ck, co, lv, sz, mx, cs, body, at_, hok, hm8, hu8, hb, -⟩)
      · rfl
      · omega
      · have := congrArg List.length hb
        rw [hsl, show Spec.metaHeaderBytes m o ck co lv sz mx cs u = (⟨m, o, ck, co, lv, sz, mx, cs, u⟩ : MetadataHeader).bytes by
          simp only [MetadataHeader.bytes], MetadataHeader.bytes_length] at this
        omega
  have hl32 : (slice fp.data fp.pos (fp.pos + 32)).length = 32 := by rw [hsl]; omega
  have hget : ∀ i, i < 32 → (slice fp.data fp.pos (fp.pos + 32))[i]? = fp.data[fp.pos + i]? := by
    intro i hi
    simp [slice, List.getElem?_take, List.getElem?_drop, hi]
  obtain ⟨k, hk⟩ : ∃ k, fp.data[fp.pos + 9]? = some k := ⟨_, List.getElem?_eq_getElem (by omega)⟩
  obtain ⟨c, hc⟩ : ∃ k, fp.data[fp.pos + 10]? = some k := ⟨_, List.getElem?_eq_getElem (by omega)⟩
  obtain ⟨l, hl⟩ : ∃ k, fp.data[fp.pos + 11]? = some k := ⟨_, List.getElem?_eq_getElem (by omega)⟩
  obtain ⟨g1, g2⟩ := (C79_refused (slice fp.data fp.pos (fp.pos + 32))).2 k c l hl32 (by rw [hget _ (by omega), hk])
    (by rw [hget _ (by omega), hc]) (by rw [hget _ (by omega), hl])
  have hacc := C79_accepted (slice fp.data fp.pos (fp.pos + 32))
  by_cases hgood : k.toNat < 9 ∧ c.toNat < 2 ∧ l.toNat ≤ 9
  · obtain ⟨h, hd⟩ := hacc.2 ⟨hl32, k, c, l, by rw [hget _ (by omega), hk], by rw [hget _ (by omega), hc], by rw [hget _ (by omega), hl], hgood⟩
    obtain ⟨m, u, i, j, k', l', hm8, hu8, hm, hm1, hm2, hu, -, -, hok, hbytes⟩ := C79_meaning _ _ hd
    have hjson : h.magic_format = [74, 83, 79, 78] ↔ ∃ i j, m = List.replicate i 0 ++ [74, 83, 79, 78] ++ List.replicate j 0 := by
      constructor
      · intro hj; exact ⟨i, j, by rw [hm, hj]⟩
      · rintro ⟨i', j', hm'⟩
        have e1 := stripNulls_spec i j _ hm1 hm2
        rw [← hm, hm', stripNulls_spec i' j' _ (by decide) (by decide)] at e1
        exact e1.symm
    have hpost := readMetadata_error_ok E fp h hd _ rfl _ rfl e
    rw [loadMetadata_error_iff E h hok.2.2.2.1] at hpost
    rw [hpost]
    constructor
    · intro hx
      refine .inr (.inr ⟨m, u, h.meta_options, h.meta_checksum, h.meta_codec, h.meta_level, h.meta_size, h.max_meta_size, h.meta_comp_size,
        _, _, ⟨by omega, hok.2.1, hok.2.2.1, hok.2.2.2.1, hok.2.2.2.2.1, hok.2.2.2.2.2.1, hok.2.2.2.2.2.2.1, hok.2.2.2.2.2.2.2.1,
          by omega⟩, hm8, hu8, hbytes, rfl, rfl, ?_⟩)
      simp only [← hjson]
      exact hx
    · rintro (⟨h1, -⟩ | ⟨k2, c2, l2, -, h9, h10, h11, hx⟩ | ⟨m', u', o, ck, co, lv, sz, mx, cs, body, at_, hok', hm8', hu8', hb, rfl, rfl, hx⟩)
      · omega
      · rw [hk] at h9; rw [hc] at h10; rw [hl] at h11
        cases h9; cases h10; cases h11
        omega
      · -- the fields are those of the bytes
        obtain ⟨mg, us, hdec, hmg⟩ := metaHeader_decoded hok' hm8' hu8' hb
        rw [hd] at hdec
        cases hdec
        simp only [hmg] at hx
        exact hx
  · have hno : ∀ (m u : Bytes) o ck co lv sz mx cs, Spec.MetaFieldsOK m o ck co lv sz mx cs u → m.length = 8 → u.length = 8 →
        slice fp.data fp.pos (fp.pos + 32) ≠ Spec.metaHeaderBytes m o ck co lv sz mx cs u := by
      intro m u o ck co lv sz mx cs hok hm8 hu8 hb
      obtain ⟨mg, us, h2, -⟩ := metaHeader_decoded hok hm8 hu8 hb
      obtain ⟨-, k', c', l', i1, i2, i3, i4⟩ := hacc.1 ⟨_, h2⟩
      rw [hget _ (by omega)] at i1 i2 i3
      rw [hk] at i1; rw [hc] at i2; rw [hl] at i3
      cases i1; cases i2; cases i3
      exact hgood i4
    constructor
    · intro hx
      refine .inr (.inl ⟨k, c, l, by omega, hk, hc, hl, ?_⟩)
      by_cases hi : 9 ≤ k.toNat ∨ 2 ≤ c.toNat
      · rw [hbad _ (g1 hi)] at hx
        exact .inl ⟨hi, (Except.error.inj hx).symm⟩
      · rw [hbad _ (g2 (by omega) (by omega) (by omega))] at hx
        exact .inr ⟨by omega, by omega, by omega, (Except.error.inj hx).symm⟩
    · rintro (⟨h1, -⟩ | ⟨k2, c2, l2, -, h9, h10, h11, hx⟩ | ⟨m', u', o, ck, co, lv, sz, mx, cs, body, at_, hok', hm8', hu8', hb, -⟩)
      · omega
      · rw [hk] at h9; rw [hc] at h10; rw [hl] at h11
        cases h9; cases h10; cases h11
        rcases hx with ⟨hx, rfl⟩ | ⟨h1, h2, h3, rfl⟩
        · exact hbad _ (g1 hx)
        · exact hbad _ (g2 h1 h2 h3)
      · exact absurd hb (hno _ _ _ _ _ _ _ _ _ hok' hm8' hu8')

/-! ### the offsets -/

theorem decodeOffsets_short' (n : Nat) (raw : Bytes) (h : raw.length < 8 * n) : decodeOffsets raw n = .error .structError := by
  induction n generalizing raw with
  | zero => omega
  | succ n ih =>
    by_cases h8 : (raw.take 8).length = 8
    · have he := ih (raw.drop 8) (by simp at h8 ⊢; omega)
      obtain ⟨v, hv⟩ : ∃ v, decodeInt64 (raw.take 8) = .ok v := ⟨_, if_pos h8⟩
      simp only [decodeOffsets, hv, Except.ok_bind', he, Except.error_bind']
    · have : decodeInt64 (raw.take 8) = .error .structError := if_neg h8
      simp only [decodeOffsets, this, Except.error_bind']

/-- exactly why the offsets are refused -/
theorem readOffsets_error_at (h : BloscpackHeader) (hok : h.OK) (fp : FP) (e : Err) :
    (readOffsets h fp).1 = .error e ↔ h.offsets = true ∧
      ((h.nchunks < 0 ∧ e = .typeError) ∨
       (0 ≤ h.nchunks ∧ 2 ^ 63 ≤ 8 * (h.nchunks + h.max_app_chunks) ∧ e = .overflowError) ∨
       (0 < h.nchunks ∧ 8 * (h.nchunks + h.max_app_chunks) < 2 ^ 63 ∧ (fp.data.length : Int) < fp.pos + 8 * h.nchunks ∧ e = .structError)) := by
  unfold readOffsets
  cases ho : h.offsets with
  | false => simp [Proc.pure_apply]
  | true =>
    simp only [if_true, true_and]
    unfold BloscpackHeader.totalProspectiveChunks
    have hma := hok.2.2.2.2.2.2.1.1
    by_cases hn : 0 ≤ h.nchunks
    · rw [if_pos hn]
      by_cases hsm : 8 * (h.nchunks + h.max_app_chunks) ≥ 2 ^ 63
      · simp only
        rw [Proc.bind_of_error (Proc.raiseIf_pos hsm _ _)]
        constructor
        · intro hx; exact .inr (.inl ⟨hn, hsm, (Except.error.inj hx).symm⟩)
        · rintro (⟨h1, -⟩ | ⟨-, -, rfl⟩ | ⟨-, h1, -⟩)
          · omega
          · rfl
          · omega
      have ht : (8 * (h.nchunks + h.max_app_chunks)) = ((8 * (h.nchunks + h.max_app_chunks)).toNat : Nat) := by omega
      simp only
      rw [Proc.bind_of_ok (Proc.raiseIf_neg hsm _ _)]
      rw [ht, Proc.bind_of_ok (fpRead_at fp _), Proc.ofExcept_apply]
      generalize hT : (8 * (h.nchunks + h.max_app_chunks)).toNat = T
      have hsl : (slice fp.data fp.pos (fp.pos + T)).length = min T (fp.data.length - fp.pos) := by
        simp [slice]
      by_cases hs : (slice fp.data fp.pos (fp.pos + T)).length < 8 * h.nchunks.toNat
      · rw [decodeOffsets_short' _ _ hs]
        rw [hsl] at hs
        constructor
        · intro hx; exact .inr (.inr ⟨by omega, by omega, by omega, (Except.error.inj hx).symm⟩)
        · rintro (⟨h1, -⟩ | ⟨-, h1, -⟩ | ⟨-, -, -, rfl⟩)
          · omega
          · omega
          · rfl
      · obtain ⟨os, h4, -⟩ := decodeOffsets_ok h.nchunks.toNat (slice fp.data fp.pos (fp.pos + T)) (by omega)
        rw [h4]
        rw [hsl] at hs
        constructor
        · intro hx; cases hx
        · rintro (⟨h1, -⟩ | ⟨-, h1, -⟩ | ⟨h1, -, h2, -⟩) <;> omega
    · rw [if_neg hn]
      constructor
      · intro hx; exact .inl ⟨by omega, (Except.error.inj hx).symm⟩
      · rintro (⟨-, rfl⟩ | ⟨h1, -⟩ | ⟨h1, -⟩)
        · rfl
        · omega
        · omega

/-! ### the chunks -/

theorem decodeBloscHeader_short' {b : Bytes} (h : b.length < 16) :
    decodeBloscHeader b = .error (if b.length < 4 then .indexError else .structError) := by
  match b, h with
  | [], _ => rfl
  | [_], _ => rfl
  | [_, _], _ => rfl
  | [_, _, _], _ => rfl
  | a :: b :: c :: d :: rest, h =>
    rw [if_neg (by simp)]
    simp only [List.length_cons] at h
    have hu : ∀ i j, j = i + 4 → decodeUInt32 (slice (a :: b :: c :: d :: rest) i j) = .error .structError ∨
        ∃ v, decodeUInt32 (slice (a :: b :: c :: d :: rest) i j) = .ok v := by
      intro i j _
      unfold decodeUInt32 unpackUnsigned
      split
      · exact .inr ⟨_, rfl⟩
      · exact .inl rfl
    have hlast : decodeUInt32 (slice (a :: b :: c :: d :: rest) 12 16) = .error .structError := by
      unfold decodeUInt32 unpackUnsigned
      rw [if_neg]
      simp only [slice, List.length_take, List.length_drop, List.length_cons]
      omega
    have hb : ∀ i, i < 4 → ∃ v, byteAt (a :: b :: c :: d :: rest) i = .ok v := by
      intro i hi
      match i, hi with
      | 0, _ => exact ⟨_, rfl⟩
      | 1, _ => exact ⟨_, rfl⟩
      | 2, _ => exact ⟨_, rfl⟩
      | 3, _ => exact ⟨_, rfl⟩
    obtain ⟨v0, h0⟩ := hb 0 (by omega)
    obtain ⟨v1, h1⟩ := hb 1 (by omega)
    obtain ⟨v2, h2⟩ := hb 2 (by omega)
    obtain ⟨v3, h3⟩ := hb 3 (by omega)
    unfold decodeBloscHeader
    rw [h0, Except.ok_bind', h1, Except.ok_bind', h2, Except.ok_bind', h3, Except.ok_bind']
    rcases hu 4 8 rfl with h4 | ⟨v4, h4⟩
    · rw [h4, Except.error_bind']
    rw [h4, Except.ok_bind']
    rcases hu 8 12 rfl with h5 | ⟨v5, h5⟩
    · rw [h5, Except.error_bind']
    rw [h5, Except.ok_bind', hlast, Except.error_bind']

theorem unpackLoop_none {E : Env μ} {h : BloscpackHeader} {impl : Hash} (fp t : FP) (fuel i : Nat)
    (hx : (fp.data.drop fp.pos).length < 16) :
    ∃ s, unpackLoop (compressedFPSource h impl) (plainFPSinkPut E) (fuel + 1) i (fp, t) =
      (.error (if (fp.data.drop fp.pos).length < 4 then .indexError else .structError), (s, t)) := by
  have hsl : slice fp.data fp.pos (fp.pos + 16) = fp.data.drop fp.pos := by
    unfold slice
    rw [List.take_of_length_le (by omega)]
  have hrd : fpRead (BLOSC_HEADER_LENGTH : Int) fp = _ := fpRead_at fp 16
  have hr : ∃ s, readCompressedChunk impl fp =
      (.error (if (fp.data.drop fp.pos).length < 4 then .indexError else .structError), s) := by
    unfold readCompressedChunk
    rw [hsl] at hrd
    rw [Proc.bind_of_ok hrd, Proc.bind_of_error (Proc.ofExcept_apply _ _ |>.trans (by rw [decodeBloscHeader_short' hx]))]
    exact ⟨_, rfl⟩
  obtain ⟨s, hr⟩ := hr
  refine ⟨s, ?_⟩
  have hn : (compressedFPSource h impl).next i fp =
      (.error (if (fp.data.drop fp.pos).length < 4 then .indexError else .structError), s) := by
    show (readCompressedChunk impl >>= fun r => Proc.pure (r.1, r.2.2)) _ = _
    rw [Proc.bind_of_error hr]
  show (Proc.onFst ((compressedFPSource h impl).next i) >>= _) _ = _
  rw [Proc.bind_of_error (s' := (s, t)) (by rw [Proc.onFst_apply, hn])]

theorem ChunksRefused.pos {E : Env μ} {f : Bytes → Bytes} {size n : Nat} {R out : Bytes} {e : Err}
    (h : Spec.ChunksRefused E f size R n out e) : 0 < n := by
  cases h <;> simp

theorem ChunksRefused.nil {E : Env μ} (L : E.Laws) {f : Bytes → Bytes} {size n : Nat} {R out : Bytes} {e : Err} (hR : R = [])
    (h : Spec.ChunksRefused E f size R n out e) : out = [] ∧ e = .indexError := by
  cases h with
  | none => exact ⟨rfl, rfl⟩
  | short _ _ h1 => rw [hR] at h1; simp at h1
  | mismatch _ _ _ _ h1 => rw [hR] at h1; simp at h1
  | undecodable _ _ _ _ _ h1 => rw [hR] at h1; simp at h1
  | later c d rest k o _ hd _ =>
    have := (framed_of_decompress L hd).1
    have hl := congrArg List.length hR
    simp only [List.length_append, List.length_nil] at hl
    omega
  | last c d k hd =>
    have := (framed_of_decompress L hd).1
    have hl := congrArg List.length hR
    simp only [List.length_nil] at hl
    omega

theorem unpackLoop_Z_error {E : Env μ} (L : E.Laws) (h : BloscpackHeader) {impl : Hash} (hi : impl ∈ checksums E.hashlib) (e : Err) :
    ∀ (n : Nat) (A R O : Bytes) (l lo) (i : Nat) (s t : FP),
    unpackLoop (compressedFPSource h impl) (plainFPSinkPut E) n i (Z A R l, Z O [] lo) = (.error e, (s, t)) →
      ∃ out, t.data = O ++ out ∧ Spec.ChunksRefused E impl.function impl.size R n out e := by
  intro n
  induction n with
  | zero => intro A R O l lo i s t h1; cases h1
  | succ n ih =>
    intro A R O l lo i s t h1
    by_cases h16 : R.length < 16
    · obtain ⟨s', hs⟩ := unpackLoop_none (E := E) (h := h) (impl := impl) (Z A R l) (Z O [] lo) n i (by simpa using h16)
      rw [hs] at h1
      simp only [Prod.mk.injEq, Except.error.injEq, Z_data, Z_pos, List.drop_left] at h1
      obtain ⟨rfl, -, rfl⟩ := h1
      refine ⟨[], by simp, ?_⟩
      split
      · exact .none _ _ (by assumption)
      · exact .short _ _ (by omega) h16
    · obtain ⟨r1, r2⟩ := unpackLoop_round (E := E) (h := h) (impl := impl) A R l O lo n i (by omega) _ _ _ rfl rfl rfl
      have hds : (R.drop (leDecode (slice R 12 16))).take impl.size =
          slice R (leDecode (slice R 12 16)) (leDecode (slice R 12 16) + impl.size) := by
        simp [slice]
      by_cases hbad : (R.drop (leDecode (slice R 12 16))).take impl.size ≠ [] ∧
          (R.drop (leDecode (slice R 12 16))).take impl.size ≠ impl.function (R.take (leDecode (slice R 12 16)))
      · rw [r1 hbad] at h1
        simp only [Prod.mk.injEq, Except.error.injEq] at h1
        obtain ⟨rfl, -, rfl⟩ := h1
        refine ⟨[], by simp, ?_⟩
        exact .mismatch _ _ _ _ (by omega) rfl rfl (by rw [← hds]; exact hbad.1) (by rw [← hds]; exact hbad.2)
      · obtain ⟨r3, r4⟩ := r2 hbad
        cases hd : E.decompress (R.take (leDecode (slice R 12 16))) with
        | error e' =>
          rw [r3 e' hd] at h1
          simp only [Prod.mk.injEq, Except.error.injEq] at h1
          obtain ⟨rfl, -, rfl⟩ := h1
          refine ⟨[], by simp, ?_⟩
          refine .undecodable _ _ _ _ _ (by omega) rfl rfl ?_ hd
          rw [← hds]
          by_cases hq : (R.drop (leDecode (slice R 12 16))).take impl.size = []
          · exact .inl hq
          · exact .inr (Classical.byContradiction fun hw => hbad ⟨hq, hw⟩)
        | ok d =>
          rw [r4 d hd] at h1
          have hsz := Hash.size_eq L hi (R.take (leDecode (slice R 12 16)))
          have hfr := framed_of_decompress L hd
          obtain ⟨out', hout, hrest⟩ := ih _ _ (O ++ d) _ _ _ s t h1
          refine ⟨d ++ out', by rw [hout, List.append_assoc], ?_⟩
          by_cases hq : (R.drop (leDecode (slice R 12 16))).take impl.size = impl.function (R.take (leDecode (slice R 12 16)))
          · have hR : R = R.take (leDecode (slice R 12 16)) ++ impl.function (R.take (leDecode (slice R 12 16))) ++
                (R.drop (leDecode (slice R 12 16))).drop impl.size := by
              rw [← hq, List.append_assoc, List.take_append_drop, List.take_append_drop]
            rw [hR]
            generalize R.take (leDecode (slice R 12 16)) = c at *
            generalize (R.drop (leDecode (slice R 12 16))).drop impl.size = rest at *
            exact .later c d rest n out' e hd hrest
          · have hnil : (R.drop (leDecode (slice R 12 16))).take impl.size = [] :=
              Classical.byContradiction fun hw => hbad ⟨hw, hq⟩
            have hsz0 : impl.size ≠ 0 := by
              intro h0
              rw [hnil] at hq
              apply hq
              rw [h0] at hsz
              exact (List.length_eq_zero_iff.1 (by omega)).symm
            have hdrop : R.drop (leDecode (slice R 12 16)) = [] := by
              rcases List.take_eq_nil_iff.1 hnil with h3 | h3
              · exact absurd h3 hsz0
              · exact h3
            rw [hdrop, List.drop_nil] at hrest
            have hRc : R.take (leDecode (slice R 12 16)) = R := List.take_of_length_le (List.drop_eq_nil_iff.1 hdrop)
            rw [hRc] at hd
            obtain ⟨rfl, rfl⟩ := ChunksRefused.nil L rfl hrest
            rw [List.append_nil]
            cases n with
            | zero => exact absurd (ChunksRefused.pos hrest) (by simp)
            | succ m => exact .last R d m hd

theorem unpackLoop_Z_refused {E : Env μ} (L : E.Laws) (h : BloscpackHeader) {impl : Hash} (hi : impl ∈ checksums E.hashlib) (e : Err) :
    ∀ (n : Nat) (A R O : Bytes) (l lo) (i : Nat) (out : Bytes), Spec.ChunksRefused E impl.function impl.size R n out e →
    ∃ s t, unpackLoop (compressedFPSource h impl) (plainFPSinkPut E) n i (Z A R l, Z O [] lo) = (.error e, (s, t)) ∧ t.data = O ++ out := by
  intro n
  induction n with
  | zero => intro A R O l lo i out h1; exact absurd (ChunksRefused.pos h1) (by simp)
  | succ n ih =>
    intro A R O l lo i out hc
    cases hc with
    | none _ _ h4 =>
      obtain ⟨s', hs⟩ := unpackLoop_none (E := E) (h := h) (impl := impl) (Z A R l) (Z O [] lo) n i (by simp; omega)
      rw [Z_data, Z_pos, List.drop_left, if_pos h4] at hs
      exact ⟨_, _, hs, by simp⟩
    | short _ _ h4 h16 =>
      obtain ⟨s', hs⟩ := unpackLoop_none (E := E) (h := h) (impl := impl) (Z A R l) (Z O [] lo) n i (by simp; omega)
      rw [Z_data, Z_pos, List.drop_left, if_neg (by omega)] at hs
      exact ⟨_, _, hs, by simp⟩
    | mismatch _ _ k d h16 hk hd h1 h2 =>
      subst hk hd
      obtain ⟨r1, -⟩ := unpackLoop_round (E := E) (h := h) (impl := impl) A R l O lo n i (by omega) _ _ _ rfl rfl rfl
      refine ⟨_, _, r1 ?_, by simp⟩
      simp only [slice, Nat.add_sub_cancel_left] at h1 h2 ⊢
      exact ⟨h1, h2⟩
    | undecodable _ _ k d _ h16 hk hd h1 h2 =>
      subst hk hd
      obtain ⟨-, r2⟩ := unpackLoop_round (E := E) (h := h) (impl := impl) A R l O lo n i (by omega) _ _ _ rfl rfl rfl
      refine ⟨_, _, (r2 ?_).1 e h2, by simp⟩
      simp only [slice, Nat.add_sub_cancel_left] at h1 ⊢
      rintro ⟨h3, h4⟩
      exact h1.elim h3 h4
    | later c d rest k o _ hd hr =>
      obtain ⟨lo1, h1⟩ := unpackLoop_step L (h := h) hi A c rest l d O lo hd n i
      obtain ⟨s, t, h2, h3⟩ := ih (A ++ (c ++ impl.function c)) rest (O ++ d) l lo1 (i + 1) o hr
      exact ⟨s, t, by rw [h1, h2], by rw [h3, List.append_assoc]⟩
    | last c d m hd =>
      have hf := framed_of_decompress L hd
      obtain ⟨-, r2⟩ := unpackLoop_round (E := E) (h := h) (impl := impl) A R l O lo (m + 1) i hf.1 _ _ _ rfl rfl rfl
      rw [hf.2, List.take_length, List.drop_length] at r2
      have h1 := (r2 (by simp)).2 out hd
      obtain ⟨s, t, h2, h3⟩ := ih (A ++ R ++ List.take impl.size []) (List.drop impl.size []) (O ++ out) l (lo ++ [(O.length, out)]) (i + 1) []
        (by rw [List.drop_nil]; exact .none _ _ (by simp))
      exact ⟨s, t, by rw [h1, h2], by rw [h3, List.append_nil]⟩

/-- exactly why the chunks are refused, and what has been unpacked by then -/
theorem unpackLoop_error_at (E : Env μ) (L : E.Laws) (h : BloscpackHeader) {impl : Hash} (hi : impl ∈ checksums E.hashlib) (fp : FP) (n : Nat)
    (out : Bytes) (e : Err) :
    (∃ s t, unpackLoop (compressedFPSource h impl) (plainFPSinkPut E) n 0 (fp, { data := [] }) = (.error e, (s, t)) ∧ t.data = out) ↔
      Spec.ChunksRefused E impl.function impl.size (fp.data.drop fp.pos) n out e := by
  have hfile : ∀ g : FP, g.inMemory = false →
      ((∃ s t, unpackLoop (compressedFPSource h impl) (plainFPSinkPut E) n 0 (g, { data := [] }) = (.error e, (s, t)) ∧ t.data = out) ↔
        Spec.ChunksRefused E impl.function impl.size (g.data.drop g.pos) n out e) := by
    intro g hm
    by_cases hle : g.pos ≤ g.data.length
    · have hz := Z_of g hle
      rw [hm] at hz
      constructor
      · rintro ⟨s, t, h1, h2⟩
        rw [hz] at h1
        obtain ⟨out', h3, h4⟩ := unpackLoop_Z_error L h hi e n (g.data.take g.pos) (g.data.drop g.pos) [] g.log [] 0 s t h1
        rw [h2, List.nil_append] at h3
        rw [h3]; exact h4
      · intro h1
        have := unpackLoop_Z_refused L h hi e n (g.data.take g.pos) (g.data.drop g.pos) [] g.log [] 0 out h1
        rw [← hz, List.nil_append] at this
        exact this
    · have hnil : g.data.drop g.pos = [] := List.drop_eq_nil_of_le (by omega)
      cases n with
      | zero =>
        constructor
        · rintro ⟨s, t, h1, -⟩; cases h1
        · intro h1; exact absurd (ChunksRefused.pos h1) (by simp)
      | succ n =>
        obtain ⟨s', hs⟩ := unpackLoop_none (E := E) (h := h) (impl := impl) g { data := [] } n 0 (by rw [hnil]; decide)
        rw [hs, hnil]
        constructor
        · rintro ⟨s, t, h1, h2⟩
          simp only [Prod.mk.injEq, Except.error.injEq, List.length_nil] at h1
          obtain ⟨rfl, -, rfl⟩ := h1
          simp only at h2
          subst h2
          exact .none _ _ (by simp)
        · intro hc
          obtain ⟨rfl, rfl⟩ := ChunksRefused.nil L rfl hc
          exact ⟨_, _, rfl, rfl⟩
  rcases fp.kind with hk | hk
  · exact hfile fp (by rw [hk]; rfl)
  · have h1 := hfile fp.toFile rfl
    have h3 := unpackLoop_toMemory h impl (plainFPSinkPut E) n 0 fp.toFile ({ data := [] } : FP)
    rw [← hk] at h3
    rw [h3]
    refine Iff.trans ?_ h1
    constructor
    · rintro ⟨s, t, h4, h5⟩
      simp only [Prod.mk.injEq] at h4
      exact ⟨_, t, Prod.ext h4.1 (Prod.ext rfl h4.2.2), h5⟩
    · rintro ⟨s, t, h4, h5⟩
      rw [h4]
      exact ⟨_, t, rfl, h5⟩

/-! ### the whole -/

theorem headerRefused_iff (E : Env μ) (b : Bool) (x : Bytes) (e : Err) :
    (readBloscpackHeader ({ data := x, inMemory := b } : FP)).1 = .error e ↔ Spec.HeaderRefused x e := by
  have hread : fpRead (BLOSCPACK_HEADER_LENGTH : Int) ({ data := x, inMemory := b } : FP) = _ := fpRead_at _ 32
  simp only [Nat.zero_add] at hread
  rw [← take_eq_slice] at hread
  unfold readBloscpackHeader
  rw [Proc.bind_of_ok hread]
  cases hd : BloscpackHeader.decode (x.take 32) with
  | ok h =>
    obtain ⟨hok, hb⟩ := (BloscpackHeader.decode_iff _ _).1 hd
    rw [Proc.bind_of_ok (Proc.ofExcept_apply _ _)]
    by_cases hv : h.format_version = 3
    · rw [Proc.bind_of_ok (Proc.raiseIf_neg (by simp [FORMAT_VERSION, hv]) _ _)]
      constructor
      · intro h; cases h
      · rintro (⟨h1, -⟩ | ⟨v, o, m, ck, t, c, l, n, a, h1, h2, h3, -⟩)
        · exact absurd hb (h1 _ _ _ _ _ _ _ _ _ hok)
        · have := (BloscpackHeader.decode_iff (x.take 32) ⟨v, o, m, ck, t, c, l, n, a⟩).2 ⟨h1, h2⟩
          rw [hd] at this
          cases this
          exact absurd hv h3
    · have hbad : FORMAT_VERSION ≠ h.format_version := fun h => hv h.symm
      rw [Proc.bind_of_error (Proc.raiseIf_pos hbad _ _)]
      constructor
      · intro hx
        exact .inr ⟨_, _, _, _, _, _, _, _, _, hok, hb, hv, (Except.error.inj hx).symm⟩
      · rintro (⟨h1, -⟩ | ⟨v, o, m, ck, t, c, l, n, a, h1, h2, h3, rfl⟩)
        · exact absurd hb (h1 _ _ _ _ _ _ _ _ _ hok)
        · rfl
  | error e' =>
    rw [Proc.bind_of_error (Proc.ofExcept_apply _ _)]
    have hno : ∀ h, BloscpackHeader.decode (x.take 32) ≠ .ok h := by intro h hh; rw [hd] at hh; cases hh
    have hx : ∀ v o m ck t c l n a, Spec.HeaderFieldsOK v t c l n a ck → x.take 32 ≠ Spec.headerBytes v o m ck t c l n a := by
      intro v o m ck t c l n a h1 h2
      exact hno ⟨v, o, m, ck, t, c, l, n, a⟩ ((BloscpackHeader.decode_iff _ _).2 ⟨h1, h2⟩)
    obtain ⟨g1, g2⟩ := C84_no_header E x hx
    rw [unpack_header_error E x e' hd] at g1 g2
    constructor
    · intro h
      cases h
      refine .inl ⟨hx, ?_⟩
      by_cases hc : ∃ v o c rest, x = [98, 108, 112, 107, v, o, c] ++ rest ∧ 25 ≤ rest.length ∧ o < 4 ∧ 9 ≤ c
      · exact .inl ⟨hc, Except.error.inj (g1 hc)⟩
      · exact .inr ⟨hc, Except.error.inj (g2 hc)⟩
    · rintro (⟨-, ⟨hc, rfl⟩ | ⟨hc, rfl⟩⟩ | ⟨v, o, m, ck, t, c, l, n, a, h1, h2, -⟩)
      · have := g1 hc; cases this; rfl
      · have := g2 hc; cases this; rfl
      · exact absurd h2 (hx _ _ _ _ _ _ _ _ _ h1)

/-- the header is read, of format version 3 -/
theorem readHeader_parts {b : Bool} {x : Bytes} {h : BloscpackHeader} {fp : FP}
    (hr : readBloscpackHeader ({ data := x, inMemory := b } : FP) = (.ok h, fp)) :
    fp = { data := x, pos := 32, inMemory := b } ∧ h.OK ∧ x.take 32 = h.bytes ∧ h.format_version = 3 := by
  have hread : fpRead (BLOSCPACK_HEADER_LENGTH : Int) ({ data := x, inMemory := b } : FP) = _ := fpRead_at _ 32
  simp only [Nat.zero_add] at hread
  rw [← take_eq_slice] at hread
  unfold readBloscpackHeader at hr
  rw [Proc.bind_of_ok hread] at hr
  obtain ⟨hd2, s2, e2, e3⟩ := Proc.bind_ok_iff.1 hr
  rw [Proc.ofExcept_apply, Prod.mk.injEq] at e2
  obtain ⟨hdec, rfl⟩ := e2
  obtain ⟨hok, hbytes⟩ := (BloscpackHeader.decode_iff _ _).1 hdec
  have h32 : (x.take 32).length = 32 := by rw [hbytes, hd2.bytes_length]
  have hver : hd2.format_version = 3 := by
    apply Classical.byContradiction
    intro hne
    have hbad : FORMAT_VERSION ≠ hd2.format_version := fun h => hne h.symm
    rw [Proc.bind_of_error (Proc.raiseIf_pos hbad _ _)] at e3
    cases e3
  rw [Proc.bind_of_ok (Proc.raiseIf_neg (by simp [FORMAT_VERSION, hver]) _ _), Proc.pure_apply] at e3
  simp only [Prod.mk.injEq, Except.ok.injEq, h32] at e3
  obtain ⟨rfl, rfl⟩ := e3
  exact ⟨rfl, hok, hbytes, hver⟩

theorem readHeader_of {b : Bool} {x : Bytes} {h : BloscpackHeader} (hok : h.OK) (hx : x.take 32 = h.bytes) (hv : h.format_version = 3) :
    readBloscpackHeader ({ data := x, inMemory := b } : FP) = (.ok h, { data := x, pos := 32, inMemory := b }) := by
  cases hr : readBloscpackHeader ({ data := x, inMemory := b } : FP) with
  | mk r fp =>
    have hdec : BloscpackHeader.decode (x.take 32) = .ok h := (BloscpackHeader.decode_iff _ _).2 ⟨hok, hx⟩
    cases r with
    | ok h' =>
      obtain ⟨rfl, g1, g2, -⟩ := readHeader_parts hr
      have := (BloscpackHeader.decode_iff _ _).2 ⟨g1, g2⟩
      rw [hdec] at this
      cases this
      rfl
    | error e =>
      exfalso
      have hread : fpRead (BLOSCPACK_HEADER_LENGTH : Int) ({ data := x, inMemory := b } : FP) = _ := fpRead_at _ 32
      simp only [Nat.zero_add] at hread
      rw [← take_eq_slice] at hread
      unfold readBloscpackHeader at hr
      rw [Proc.bind_of_ok hread, Proc.bind_of_ok (Proc.ofExcept_apply _ _ |>.trans (by rw [hdec])),
        Proc.bind_of_ok (Proc.raiseIf_neg (by simp [FORMAT_VERSION, hv]) _ _)] at hr
      cases hr

/-- the metadata, or that there are none -/
def metaStage (E : Env μ) (h : BloscpackHeader) : Proc FP (Option μ × Option MetadataHeader) :=
  if h.metadata then do
    let r ← readMetadata E
    Proc.pure (r.1, some r.2)
  else Proc.pure (none, none)

theorem metaStage_error (E : Env μ) (h : BloscpackHeader) (fp : FP) (e : Err) :
    (metaStage E h fp).1 = .error e ↔ h.metadata = true ∧ Spec.MetadataRefusedAt E fp.inMemory fp.data fp.pos e := by
  unfold metaStage
  cases h.metadata with
  | false => simp [Proc.pure_apply]
  | true =>
    rw [if_pos rfl, ← readMetadata_error_at]
    cases hr : readMetadata E fp with
    | mk r s =>
      cases r with
      | error e' => rw [Proc.bind_of_error hr]; simp
      | ok r => rw [Proc.bind_of_ok hr]; simp [Proc.pure_apply]

theorem metaStage_ok (E : Env μ) (L : E.Laws) (h : BloscpackHeader) (b : Bool) (x : Bytes) (q : Nat) (m : Option μ) (p : Nat) :
    (∃ mh, metaStage E h { data := x, pos := q, inMemory := b } = (.ok (m, mh), { data := x, pos := p, inMemory := b })) ↔
      (h.metadata = true ∧ Spec.MetadataAt E b x q p m ∨ h.metadata = false ∧ m = none ∧ p = q) := by
  unfold metaStage
  cases h.metadata with
  | false =>
    simp only [Bool.false_eq_true, if_false, false_and, true_and, false_or, Proc.pure_apply, Prod.mk.injEq, Except.ok.injEq, FP.mk.injEq,
      and_true]
    constructor
    · rintro ⟨mh, ⟨rfl, rfl⟩, rfl⟩; exact ⟨rfl, rfl⟩
    · rintro ⟨rfl, rfl⟩; exact ⟨none, ⟨rfl, rfl⟩, rfl⟩
  | true =>
    simp only [if_true, true_and, Bool.true_eq_false, false_and, or_false]
    rw [← readMetadata_at E L { data := x, pos := q, inMemory := b } m p]
    constructor
    · rintro ⟨mh, h1⟩
      obtain ⟨⟨a1, a2⟩, s5, e6, e7⟩ := Proc.bind_ok_iff.1 h1
      simp only [Proc.pure_apply, Prod.mk.injEq, Except.ok.injEq] at e7
      obtain ⟨⟨rfl, -⟩, rfl⟩ := e7
      exact ⟨a2, e6⟩
    · rintro ⟨mh, h1⟩
      exact ⟨some mh, by rw [Proc.bind_of_ok h1]; rfl⟩

theorem metaStage_pos (E : Env μ) (h : BloscpackHeader) {b : Bool} {x : Bytes} {q : Nat} {r fp}
    (hr : metaStage E h { data := x, pos := q, inMemory := b } = (r, fp)) : fp = { data := x, pos := fp.pos, inMemory := b } := by
  unfold metaStage at hr
  cases hm : h.metadata with
  | false =>
    rw [hm] at hr
    simp only [Bool.false_eq_true, if_false, Proc.pure_apply, Prod.mk.injEq] at hr
    rw [← hr.2]
  | true =>
    rw [hm, if_pos rfl] at hr
    have r1 := ReadOnly.readMetadata E { data := x, pos := q, inMemory := b }
    have r2 := SameKind.readMetadata E { data := x, pos := q, inMemory := b }
    cases hq : readMetadata E ({ data := x, pos := q, inMemory := b } : FP) with
    | mk r' s =>
      rw [hq] at r1 r2
      have hs := FP.with_pos r1.1 r1.2 r2
      cases r' with
      | error e => rw [Proc.bind_of_error hq] at hr; cases hr; exact hs
      | ok r' => rw [Proc.bind_of_ok hq] at hr; cases hr; exact hs

theorem readBeginning_stages (E : Env μ) : readBeginning E = (do
    let h ← readBloscpackHeader
    let r ← metaStage E h
    let o ← readOffsets h
    Proc.pure (h, r.1, r.2, o) : Proc FP _) := rfl

/-- exactly which contents of a file, or of a `BytesIO`, are not unpacked, why, and what has been unpacked by then -/
theorem unpackFP_error_iff (E : Env μ) (L : E.Laws) (b : Bool) (x out : Bytes) (e : Err) :
    unpackFP E { data := x, inMemory := b } = (.error e, out) ↔ Spec.Unreadable E b x out e := by
  have hbegerr : ∀ e' fp', readBeginning E ({ data := x, inMemory := b } : FP) = (.error e', fp') →
      unpackFP E { data := x, inMemory := b } = (.error e', []) := by
    intro e' fp' h
    unfold unpackFP
    rw [h]
  cases hh : readBloscpackHeader ({ data := x, inMemory := b } : FP) with
  | mk r fp =>
    cases r with
    | error e' =>
      have hrf := headerRefused_iff E b x
      rw [hh] at hrf
      rw [hbegerr e' fp (by rw [readBeginning_stages, Proc.bind_of_error hh])]
      constructor
      · intro h; cases h; exact .inl ⟨(hrf _).1 rfl, rfl⟩
      · rintro (⟨h1, rfl⟩ | ⟨o, m, ck, t, c, l, n, a, h1, h2, -⟩)
        · have := (hrf _).2 h1
          cases this; rfl
        · have := readHeader_of (b := b) (h := ⟨3, o, m, ck, t, c, l, n, a⟩) h1 h2 rfl
          rw [this] at hh; cases hh
    | ok h =>
      obtain ⟨rfl, hok, hx, hv⟩ := readHeader_parts hh
      obtain ⟨v, offsets, metadata, checksum, typesize, chunkSize, lastChunk, nchunks, maxApp⟩ := h
      simp only at hv
      subst hv
      -- what is left to show once the header is known
      have hhead : Spec.Unreadable E b x out e ↔
          ((metadata = true ∧ Spec.MetadataRefusedAt E b x 32 e ∧ out = []) ∨
            ∃ (p : Nat) (md : Option μ), (metadata = true ∧ Spec.MetadataAt E b x 32 p md ∨ metadata = false ∧ md = none ∧ p = 32) ∧
              ((offsets = true ∧ out = [] ∧
                ((nchunks < 0 ∧ e = .typeError) ∨
                 (0 ≤ nchunks ∧ 2 ^ 63 ≤ 8 * (nchunks + maxApp) ∧ e = .overflowError) ∨
                 (0 < nchunks ∧ 8 * (nchunks + maxApp) < 2 ^ 63 ∧ (x.length : Int) < p + 8 * nchunks ∧ e = .structError))) ∨
               ∃ q : Nat,
                (offsets = true ∧ 0 ≤ nchunks ∧ (nchunks = 0 ∨ p + 8 * nchunks ≤ x.length) ∧ 8 * (nchunks + maxApp) < 2 ^ 63 ∧
                    q = p + 8 * (nchunks + maxApp) ∨
                  offsets = false ∧ q = p) ∧
                Spec.ChunksRefused E (Spec.digest E checksum) (Spec.digestSize checksum) (x.drop q) nchunks.toNat out e)) := by
        constructor
        · rintro (⟨h1, -⟩ | ⟨o, m, ck, t, c, l, n, a, h1, h2, h3⟩)
          · have := (headerRefused_iff E b x e).2 h1
            rw [hh] at this; cases this
          · have := readHeader_of (b := b) (h := ⟨3, o, m, ck, t, c, l, n, a⟩) h1 h2 rfl
            rw [this] at hh
            cases hh
            exact h3
        · intro h3
          exact .inr ⟨offsets, metadata, checksum, typesize, chunkSize, lastChunk, nchunks, maxApp, hok, hx, h3⟩
      rw [hhead]
      generalize hH : (⟨3, offsets, metadata, checksum, typesize, chunkSize, lastChunk, nchunks, maxApp⟩ : BloscpackHeader) = h at *
      have f1 : h.offsets = offsets := by rw [← hH]
      have f2 : h.metadata = metadata := by rw [← hH]
      have f3 : h.nchunks = nchunks := by rw [← hH]
      have f4 : h.max_app_chunks = maxApp := by rw [← hH]
      have f5 : h.checksum = checksum := by rw [← hH]
      have mok := metaStage_ok E L h b x 32
      have merr := metaStage_error E h ({ data := x, pos := 32, inMemory := b } : FP)
      cases hm : metaStage E h ({ data := x, pos := 32, inMemory := b } : FP) with
      | mk r fp =>
        rw [f2] at mok merr
        cases r with
        | error e' =>
          rw [hbegerr e' fp (by rw [readBeginning_stages, Proc.bind_of_ok hh, Proc.bind_of_error hm])]
          rw [hm] at merr
          constructor
          · intro h; cases h
            obtain ⟨g1, g2⟩ := (merr _).1 rfl
            exact .inl ⟨g1, g2, rfl⟩
          · rintro (⟨h1, h2, rfl⟩ | ⟨p, md, h1, -⟩)
            · cases (merr _).2 ⟨h1, h2⟩; rfl
            · obtain ⟨mh, h2⟩ := (mok md p).2 h1
              rw [hm] at h2; cases h2
        | ok r =>
          obtain ⟨md, mh⟩ := r
          have hfp := metaStage_pos E h hm
          generalize hp : fp.pos = p at hfp
          subst hfp
          have hmd := (mok md p).1 ⟨mh, hm⟩
          have hmeta : ∀ (p' : Nat) (md' : Option μ),
              (metadata = true ∧ Spec.MetadataAt E b x 32 p' md' ∨ metadata = false ∧ md' = none ∧ p' = 32) ↔ p' = p ∧ md' = md := by
            intro p' md'
            constructor
            · intro h1
              obtain ⟨mh', h2⟩ := (mok md' p').2 h1
              rw [hm] at h2
              simp only [Prod.mk.injEq, Except.ok.injEq, FP.mk.injEq] at h2
              exact ⟨h2.2.2.1.symm, h2.1.1.symm⟩
            · rintro ⟨rfl, rfl⟩; exact hmd
          have hnot : ¬ (metadata = true ∧ Spec.MetadataRefusedAt E b x 32 e ∧ out = []) := by
            rintro ⟨h1, h2, -⟩
            have := (merr e).2 ⟨h1, h2⟩
            rw [hm] at this; cases this
          simp only [hmeta, hnot, false_or]
          -- the offsets
          have oerr := readOffsets_error_at h hok ({ data := x, pos := p, inMemory := b } : FP)
          have ook := readOffsets_at h hok ({ data := x, pos := p, inMemory := b } : FP)
          simp only [f1, f3, f4] at oerr ook
          have hred : (∃ (p' : Nat) (md' : Option μ), (p' = p ∧ md' = md) ∧
              ((offsets = true ∧ out = [] ∧
                ((nchunks < 0 ∧ e = .typeError) ∨
                 (0 ≤ nchunks ∧ 2 ^ 63 ≤ 8 * (nchunks + maxApp) ∧ e = .overflowError) ∨
                 (0 < nchunks ∧ 8 * (nchunks + maxApp) < 2 ^ 63 ∧ (x.length : Int) < p' + 8 * nchunks ∧ e = .structError))) ∨
               ∃ q : Nat,
                (offsets = true ∧ 0 ≤ nchunks ∧ (nchunks = 0 ∨ p' + 8 * nchunks ≤ x.length) ∧ 8 * (nchunks + maxApp) < 2 ^ 63 ∧
                    q = p' + 8 * (nchunks + maxApp) ∨
                  offsets = false ∧ q = p') ∧
                Spec.ChunksRefused E (Spec.digest E checksum) (Spec.digestSize checksum) (x.drop q) nchunks.toNat out e)) ↔
              (((readOffsets h ({ data := x, pos := p, inMemory := b } : FP)).1 = .error e ∧ out = []) ∨
               ∃ q : Nat,
                (offsets = true ∧ 0 ≤ nchunks ∧ (nchunks = 0 ∨ p + 8 * nchunks ≤ x.length) ∧ 8 * (nchunks + maxApp) < 2 ^ 63 ∧
                    q = p + 8 * (nchunks + maxApp) ∨
                  offsets = false ∧ q = p) ∧
                Spec.ChunksRefused E (Spec.digest E checksum) (Spec.digestSize checksum) (x.drop q) nchunks.toNat out e) := by
            rw [oerr]
            constructor
            · rintro ⟨_, _, ⟨rfl, rfl⟩, ⟨h1, h2, h3⟩ | h⟩
              · exact .inl ⟨⟨h1, h3⟩, h2⟩
              · exact .inr h
            · rintro (⟨⟨h1, h3⟩, h2⟩ | h)
              · exact ⟨_, _, ⟨rfl, rfl⟩, .inl ⟨h1, h2, h3⟩⟩
              · exact ⟨_, _, ⟨rfl, rfl⟩, .inr h⟩
          rw [hred]
          cases ho : readOffsets h ({ data := x, pos := p, inMemory := b } : FP) with
          | mk r fp =>
            cases r with
            | error e' =>
              rw [hbegerr e' fp (by rw [readBeginning_stages, Proc.bind_of_ok hh, Proc.bind_of_ok hm, Proc.bind_of_error ho])]
              constructor
              · intro h; cases h; exact .inl ⟨rfl, rfl⟩
              · rintro (⟨h1, rfl⟩ | ⟨q, h1, -⟩)
                · cases h1; rfl
                · obtain ⟨os, r, h2, -⟩ := (ook (x.drop q)).2 ⟨q, h1, rfl⟩
                  rw [ho] at h2; cases h2
            | ok os =>
              have r1 := ReadOnly.readOffsets h ({ data := x, pos := p, inMemory := b } : FP)
              have r2 := SameKind.readOffsets h ({ data := x, pos := p, inMemory := b } : FP)
              rw [ho] at r1 r2
              have hs := FP.with_pos r1.1 r1.2 r2
              generalize hr : fp.pos = r at hs
              simp only at hs
              subst hs
              have hdrop : ∀ q : Nat, (offsets = true ∧ 0 ≤ nchunks ∧ (nchunks = 0 ∨ p + 8 * nchunks ≤ x.length) ∧
                  8 * (nchunks + maxApp) < 2 ^ 63 ∧ q = p + 8 * (nchunks + maxApp) ∨ offsets = false ∧ q = p) → x.drop q = x.drop r := by
                intro q hq
                obtain ⟨os', r', h2, h3⟩ := (ook (x.drop q)).2 ⟨q, hq, rfl⟩
                rw [ho] at h2
                simp only [Prod.mk.injEq, FP.mk.injEq] at h2
                rw [← h3, h2.2.2.1]
              obtain ⟨q0, hq0, hq0'⟩ := (ook (x.drop r)).1 ⟨os, r, ho, rfl⟩
              obtain ⟨impl, hi, -, hsz⟩ := checksumLookup_of (hl := E.hashlib) hok.2.1
              have hi' : h.checksumImpl E = .ok impl := hi
              have hf : Spec.digest E checksum = impl.function := by
                rw [← f5]; exact funext fun d => (digest_eq hi d).1.symm
              have hsz' : Spec.digestSize checksum = impl.size := by
                rw [← f5]; exact hsz.symm
              have hl := unpackLoop_error_at E L h (checksumLookup_mem hi).1 ({ data := x, pos := r, inMemory := b } : FP) nchunks.toNat out e
              rw [hf, hsz']
              have hbeg : readBeginning E ({ data := x, inMemory := b } : FP) = (.ok (h, md, mh, os), { data := x, pos := r, inMemory := b }) := by
                rw [readBeginning_stages, Proc.bind_of_ok hh, Proc.bind_of_ok hm, Proc.bind_of_ok ho]
                rfl
              have hun : unpackFP E ({ data := x, inMemory := b } : FP) =
                  ((unpackLoop (compressedFPSource h impl) (plainFPSinkPut E) nchunks.toNat 0
                    ({ data := x, pos := r, inMemory := b }, ({ data := [] } : FP))).1.map (fun _ => md),
                  (unpackLoop (compressedFPSource h impl) (plainFPSinkPut E) nchunks.toNat 0
                    ({ data := x, pos := r, inMemory := b }, ({ data := [] } : FP))).2.2.data) := by
                unfold unpackFP
                rw [hbeg]
                simp only [hi']
                rw [← f3]
                rfl
              rw [hun]
              have hiff : (∃ q : Nat, (offsets = true ∧ 0 ≤ nchunks ∧ (nchunks = 0 ∨ p + 8 * nchunks ≤ x.length) ∧
                  8 * (nchunks + maxApp) < 2 ^ 63 ∧ q = p + 8 * (nchunks + maxApp) ∨ offsets = false ∧ q = p) ∧
                  Spec.ChunksRefused E impl.function impl.size (x.drop q) nchunks.toNat out e) ↔
                  Spec.ChunksRefused E impl.function impl.size (x.drop r) nchunks.toNat out e := by
                constructor
                · rintro ⟨q, h1, h2⟩; rw [← hdrop q h1]; exact h2
                · intro h2; exact ⟨q0, hq0, by rw [hdrop q0 hq0]; exact h2⟩
              rw [hiff]
              simp only at hl
              rw [← hl]
              generalize unpackLoop (compressedFPSource h impl) (plainFPSinkPut E) nchunks.toNat 0
                    (({ data := x, pos := r, inMemory := b } : FP), ({ data := [] } : FP)) = u
              obtain ⟨ur, s, t⟩ := u
              cases ur with
              | ok w => simp [Except.map]
              | error e' =>
                simp only [Except.map, Prod.mk.injEq, Except.error.injEq]
                constructor
                · rintro ⟨rfl, h2⟩; exact .inr ⟨s, t, ⟨rfl, rfl, rfl⟩, h2⟩
                · rintro (⟨h1, -⟩ | ⟨_, _, ⟨rfl, rfl, rfl⟩, h2⟩)
                  · cases h1
                  · exact ⟨rfl, h2⟩

/-- C101: `unpack_bytes_from_bytes` refuses a byte string exactly for these reasons, with exactly these exceptions. -/
theorem C101_memory (E : Env μ) (L : E.Laws) (x : Bytes) (e : Err) :
    unpackBytesFromBytes E x = .error e ↔ ∃ out, Spec.Unreadable E true x out e := by
  simp only [← unpackFP_error_iff E L]
  unfold unpackBytesFromBytes
  rcases unpackFP E ({ data := x, inMemory := true } : FP) with ⟨r, o⟩
  cases r <;> simp

/-- C101: `unpack_bytes_from_file` raises an exception exactly if there is no such file, or for these reasons. -/
theorem C101_file (E : Env μ) (L : E.Laws) (fs : FS) (name : String) (e : Err) :
    unpackBytesFromFile E fs name = .error e ↔
      (fs.files name = none ∧ e = .osError) ∨ ∃ x out, fs.files name = some x ∧ Spec.Unreadable E false x out e := by
  simp only [← unpackFP_error_iff E L]
  unfold unpackBytesFromFile FS.openRead
  cases hx : fs.files name with
  | none => simp [eq_comm]
  | some x =>
    simp only [Option.some.injEq, exists_and_left, exists_eq_left', reduceCtorEq, false_and, false_or]
    show (match unpackFP E { data := x } with | (.ok m, out) => _ | (.error e, _) => _) = _ ↔ _
    rcases unpackFP E ({ data := x } : FP) with ⟨r, o⟩
    cases r <;> simp

/-- C101: `unpack_file_from_file`, with different input and output files, raises an exception exactly for these reasons, and leaves in the
output file exactly what was unpacked by then. -/
theorem C101_files (E : Env μ) (L : E.Laws) (fs : FS) (i o : String) (x out : Bytes) (e : Err) (hi : fs.files i = some x)
    (hw : fs.canWrite o = true) (hne : i ≠ o) :
    ((unpackFileFromFile E fs i o).1 = .error e ∧ (unpackFileFromFile E fs i o).2.files o = some out) ↔ Spec.Unreadable E false x out e := by
  rw [← unpackFP_error_iff E L]
  have h0 : x = [] → unpackFrom E x = (.error .valueError, []) := by
    rintro rfl
    unfold unpackFrom unpackFP
    have : readBeginning E ({ data := [] } : FP) = (.error .valueError, { data := [] }) := rfl
    rw [this]
  unfold unpackFileFromFile
  simp only [FS.getsize, FS.openRead, hi, FS.openWrite, hw, if_true, current_put_ne hne hi]
  show _ ↔ unpackFrom E x = _
  generalize unpackFrom E x = q at h0 ⊢
  obtain ⟨r, out'⟩ := q
  cases r with
  | error e' => simp [FS.put]
  | ok m =>
    have : ¬ x.length = 0 := by
      intro h
      cases h0 (List.length_eq_zero_iff.1 h)
    simp [this]

/-- C101: the reasons and the archives of C81 leave nothing out, and have nothing in common. -/
theorem C101_either (E : Env μ) (L : E.Laws) (inMemory : Bool) (x : Bytes) :
    ((∃ out md, Spec.Archive E inMemory x out md) ∨ ∃ out e, Spec.Unreadable E inMemory x out e) ∧
    ¬ ((∃ out md, Spec.Archive E inMemory x out md) ∧ ∃ out e, Spec.Unreadable E inMemory x out e) := by
  simp only [← unpackFP_error_iff E L, ← unpackFP_iff E L]
  rcases unpackFP E ({ data := x, inMemory := inMemory } : FP) with ⟨r, o⟩
  cases r <;> simp

/-- one chunk is there of the two that the header promises: it has been unpacked, then there is nothing to read -/
example : Spec.Unreadable Toy.env false
    (Spec.headerBytes 3 false false "None" 8 1 1 2 0 ++ [2, 1, 2, 8, 1, 0, 0, 0, 1, 0, 0, 0, 17, 0, 0, 0, 9]) [9] .indexError := by
  refine .inr ⟨false, false, "None", 8, 1, 1, 2, 0, by unfold Spec.HeaderFieldsOK; decide, by decide,
    .inr ⟨32, none, .inr ⟨rfl, rfl, rfl⟩, .inr ⟨32, .inr ⟨rfl, rfl⟩, ?_⟩⟩⟩
  exact .last _ _ 0 (by decide)

/-- the digest behind the second chunk is wrong -/
example : Spec.Unreadable Toy.env true
    (Spec.headerBytes 3 false false "crc32" 8 1 1 2 0 ++
      ([2, 1, 2, 8, 1, 0, 0, 0, 1, 0, 0, 0, 17, 0, 0, 0, 9] ++ Spec.leBytes 4 (crc32 [2, 1, 2, 8, 1, 0, 0, 0, 1, 0, 0, 0, 17, 0, 0, 0, 9]) ++
       [2, 1, 2, 8, 1, 0, 0, 0, 1, 0, 0, 0, 17, 0, 0, 0, 8, 1, 1, 1, 1])) [9] .checksumMismatch := by
  refine .inr ⟨false, false, "crc32", 8, 1, 1, 2, 0, by unfold Spec.HeaderFieldsOK; decide, by decide,
    .inr ⟨32, none, .inr ⟨rfl, rfl, rfl⟩, .inr ⟨32, .inr ⟨rfl, rfl⟩, ?_⟩⟩⟩
  exact Spec.ChunksRefused.later (E := Toy.env) (digest := Spec.digest Toy.env "crc32") (size := 4)
    [2, 1, 2, 8, 1, 0, 0, 0, 1, 0, 0, 0, 17, 0, 0, 0, 9] [9] [2, 1, 2, 8, 1, 0, 0, 0, 1, 0, 0, 0, 17, 0, 0, 0, 8, 1, 1, 1, 1] 1 [] _
    (by decide) (.mismatch _ 0 17 [1, 1, 1, 1] (by decide) (by decide) (by decide) (by decide) (by decide +kernel))

/-- a version of the format from the future, a cut metadata header, and offsets of an unknown number of chunks -/
example : Spec.Unreadable Toy.env true (Spec.headerBytes 4 false false "None" 8 1 1 2 0) [] .formatVersionMismatch ∧
    Spec.Unreadable Toy.env true (Spec.headerBytes 3 false true "None" 8 1 1 2 0 ++ [74, 83, 79, 78]) [] .valueError ∧
    Spec.Unreadable Toy.env true (Spec.headerBytes 3 true false "None" 8 1 1 (-1) 0) [] .typeError := by
  refine ⟨.inl ⟨.inr ⟨4, false, false, "None", 8, 1, 1, 2, 0, by unfold Spec.HeaderFieldsOK; decide, by decide, by decide, rfl⟩, rfl⟩,
    .inr ⟨false, true, "None", 8, 1, 1, 2, 0, by unfold Spec.HeaderFieldsOK; decide, by decide,
      .inl ⟨rfl, .inl ⟨by decide, rfl⟩, rfl⟩⟩,
    .inr ⟨true, false, "None", 8, 1, 1, -1, 0, by unfold Spec.HeaderFieldsOK; decide, by decide,
      .inr ⟨32, none, .inr ⟨rfl, rfl, rfl⟩, .inl ⟨rfl, rfl, .inl ⟨by decide, rfl⟩⟩⟩⟩⟩

end Bloscpack
