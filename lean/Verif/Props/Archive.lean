import Verif.Spec.Archive
import Verif.Props.Damage
import Verif.Props.MetaHeaderStrict
import Verif.Examples.Toy
/-!
C81: exactly which byte strings are unpacked, and to what.
-/
namespace Bloscpack
variable {μ : Type}

theorem digest_eq {E : Env μ} {name : String} {impl : Hash} (h : checksumLookup E.hashlib name = .ok impl) (d : Bytes) :
    impl.function d = Spec.digest E name d ∧ impl.size = Spec.digestSize name := by
  obtain ⟨hm, hn⟩ := checksumLookup_mem h
  have ha := leEncode_unsigned 4 (adler32 d : Int) (by omega) (by have := adler32_lt d; omega)
  have hc := leEncode_unsigned 4 (crc32 d : Int) (by omega) (by have := crc32_lt d; omega)
  have ha' : adler32 d % 4294967296 = adler32 d := Nat.mod_eq_of_lt (adler32_lt d)
  have hc' : crc32 d % 4294967296 = crc32 d := Nat.mod_eq_of_lt (crc32_lt d)
  simp only [Int.toNat_natCast] at ha hc
  simp only [checksums, List.mem_cons, List.not_mem_nil, or_false] at hm
  rcases hm with rfl | rfl | rfl | rfl | rfl | rfl | rfl | rfl | rfl <;> subst hn <;>
    refine ⟨?_, by simp only []; decide⟩ <;> simp [Spec.digest, zlibHash, ha, hc, ha', hc']

theorem fpRead_at (fp : FP) (n : Nat) :
    fpRead n fp = (.ok (slice fp.data fp.pos (fp.pos + n)), { fp with pos := fp.pos + (slice fp.data fp.pos (fp.pos + n)).length }) := by
  have : ¬ ((n : Int) < 0) := by omega
  simp [fpRead_eq, FP.read, slice, this]

theorem fpSeekRel_at (fp : FP) (n : Int) (h : fp.inMemory = true ∨ 0 ≤ fp.pos + n) :
    fpSeekRel n fp = (.ok (), { fp with pos := (fp.pos + n).toNat }) := by
  rw [fpSeekRel_eq]; unfold FP.seekRel
  rw [if_neg]
  rintro ⟨h1, h2⟩
  rcases h with h | h
  · rw [h2] at h; cases h
  · omega

theorem fpSeekRel_at_iff (fp : FP) (n : Int) (fp' : FP) :
    fpSeekRel n fp = (.ok (), fp') ↔ (fp.inMemory = true ∨ 0 ≤ fp.pos + n) ∧ fp' = { fp with pos := (fp.pos + n).toNat } := by
  constructor
  · intro h
    by_cases hc : fp.inMemory = true ∨ 0 ≤ fp.pos + n
    · rw [fpSeekRel_at fp n hc] at h
      cases h
      exact ⟨hc, rfl⟩
    · exfalso
      rw [fpSeekRel_eq] at h; unfold FP.seekRel at h
      rw [if_pos] at h
      · cases h
      · simp only [not_or, Bool.not_eq_true] at hc
        exact ⟨by omega, hc.1⟩
  · rintro ⟨h, rfl⟩
    exact fpSeekRel_at fp n h

/-- what `_read_metadata` does after reading the body: check the digest, parse -/
def metaTail (E : Env μ) (h : MetadataHeader) (body : Bytes) : Proc FP (Option μ × MetadataHeader) :=
  if h.meta_checksum ≠ "None" then do
    let impl ← Proc.ofExcept (checksumLookup E.hashlib h.meta_checksum)
    let expected ← fpRead impl.size
    Proc.raiseIf (impl.function body ≠ expected) .checksumMismatch
    let m ← Proc.ofExcept (loadMetadata E h body)
    Proc.pure (m, h)
  else do
    let m ← Proc.ofExcept (loadMetadata E h body)
    Proc.pure (m, h)

theorem readMetadata_eq (E : Env μ) : readMetadata E = (do
    let raw ← fpRead METADATA_HEADER_LENGTH
    let h ← Proc.ofExcept (MetadataHeader.decode raw)
    let body ← fpRead h.meta_comp_size
    fpSeekRel (h.max_meta_size - h.meta_comp_size)
    metaTail E h body) := rfl

theorem metaTail_iff (E : Env μ) (L : E.Laws) (h : MetadataHeader) (hck : h.meta_checksum ∈ Spec.checksumNames) (body : Bytes) (fp : FP)
    (md : Option μ) (mh : MetadataHeader) (fp' : FP) :
    metaTail E h body fp = (.ok (md, mh), fp') ↔
      mh = h ∧ loadMetadata E h body = .ok md ∧
      slice fp.data fp.pos (fp.pos + Spec.digestSize h.meta_checksum) = Spec.digest E h.meta_checksum body ∧
      fp' = { fp with pos := fp.pos + Spec.digestSize h.meta_checksum } := by
  unfold metaTail
  by_cases hn : h.meta_checksum = "None"
  · rw [if_neg (by simp [hn])]
    have h0 : Spec.digestSize "None" = 0 := by decide
    have h1 : Spec.digest E "None" body = [] := by simp [Spec.digest]
    rw [hn, h0, h1]
    cases hl : loadMetadata E h body with
    | error e => simp
    | ok m =>
      have : slice fp.data fp.pos fp.pos = [] := by simp [slice]
      simp [this]
      constructor
      · rintro ⟨⟨rfl, rfl⟩, rfl⟩; exact ⟨rfl, rfl, rfl⟩
      · rintro ⟨rfl, rfl, rfl⟩; exact ⟨⟨rfl, rfl⟩, rfl⟩
  · rw [if_pos (by simpa using hn)]
    obtain ⟨impl, hi, -, hsz⟩ := checksumLookup_of (hl := E.hashlib) hck
    have hd := (digest_eq hi body).1
    have hlen := Hash.size_eq L (checksumLookup_mem hi).1 body
    rw [hi, ← hd, ← hsz]
    rw [Proc.bind_of_ok (Proc.ofExcept_apply _ _), Proc.bind_of_ok (fpRead_at fp impl.size)]
    by_cases hx : impl.function body = slice fp.data fp.pos (fp.pos + impl.size)
    · rw [Proc.bind_of_ok (Proc.raiseIf_neg (by simpa using hx) _ _), ← hx, hlen]
      cases hl : loadMetadata E h body with
      | error e => simp
      | ok m =>
        simp
        constructor
        · rintro ⟨⟨rfl, rfl⟩, rfl⟩; exact ⟨rfl, rfl, rfl⟩
        · rintro ⟨rfl, rfl, rfl⟩; exact ⟨⟨rfl, rfl⟩, rfl⟩
    · rw [Proc.bind_of_error (Proc.raiseIf_pos (by simpa using hx) _ _)]
      simp
      intro _ _ h
      exact absurd h.symm hx

/-- parsing succeeds for JSON, after decompression if the codec says so -/
theorem loadMetadata_iff (E : Env μ) (h : MetadataHeader) (hco : h.meta_codec ∈ Spec.codecNames) (body : Bytes) (md : Option μ) :
    loadMetadata E h body = .ok md ↔ h.magic_format = [74, 83, 79, 78] ∧
      ∃ raw, (h.meta_codec = "None" ∧ raw = body ∨ h.meta_codec = "zlib" ∧ E.zdecompress body = .ok raw) ∧ E.loads raw = .ok md := by
  unfold loadMetadata
  simp only [Except.bind_ok_iff, serializerLookup, serializersAvail, List.mem_singleton]
  have hor : h.meta_codec = "None" ∨ h.meta_codec = "zlib" := by simpa [Spec.codecNames] using hco
  constructor
  · rintro ⟨raw, h1, _, h2, h3⟩
    split at h2
    · rename_i hj
      refine ⟨hj, raw, ?_, h3⟩
      rcases hor with hc | hc
      · rw [hc] at h1
        rw [if_neg (by decide)] at h1
        cases h1
        exact .inl ⟨hc, rfl⟩
      · rw [hc] at h1
        rw [if_pos (by decide)] at h1
        exact .inr ⟨hc, h1⟩
    · cases h2
  · rintro ⟨hj, raw, h1, h3⟩
    refine ⟨raw, ?_, (), by rw [if_pos hj], h3⟩
    rcases h1 with ⟨hc, rfl⟩ | ⟨hc, h1⟩
    · rw [hc, if_neg (by decide)]
    · rw [hc, if_pos (by decide)]
      exact h1

/-- the metadata section that `_read_metadata` accepts, and where it ends -/
theorem readMetadata_at (E : Env μ) (L : E.Laws) (fp : FP) (md : Option μ) (stop : Nat) :
    (∃ mh, readMetadata E fp = (.ok (md, mh), { fp with pos := stop })) ↔ Spec.MetadataAt E fp.inMemory fp.data fp.pos stop md := by
  have hread : fpRead (METADATA_HEADER_LENGTH : Int) fp = _ := fpRead_at fp 32
  constructor
  · rintro ⟨mh, h⟩
    rw [readMetadata_eq, Proc.bind_of_ok hread] at h
    obtain ⟨h0, s2, e2, g⟩ := Proc.bind_ok_iff.1 h
    clear h
    rw [Proc.ofExcept_apply, Prod.mk.injEq] at e2
    obtain ⟨hdec, rfl⟩ := e2
    obtain ⟨m, u, i, j, k, l, hm8, hu8, hm, -, -, hu, -, -, hok, hbytes⟩ := C79_meaning _ _ hdec
    have hlen32 := (MetadataHeader.decode_ok hdec).2
    have hcomp : fpRead h0.meta_comp_size = fpRead (h0.meta_comp_size.toNat : Nat) := by
      have := hok.2.2.2.2.2.2.2.1.1
      rw [Int.toNat_of_nonneg this]
    rw [hcomp, Proc.bind_of_ok (fpRead_at _ _)] at g
    obtain ⟨_, s4, e4, h⟩ := Proc.bind_ok_iff.1 g
    clear g
    obtain ⟨hseek, rfl⟩ := (fpSeekRel_at_iff _ _ _).1 e4
    obtain ⟨-, hl, hd, hfp⟩ := (metaTail_iff E L h0 hok.2.2.1 _ _ _ _ _).1 h
    obtain ⟨hmag, raw, hraw, hload⟩ := (loadMetadata_iff E h0 hok.2.2.2.1 _ _).1 hl
    simp only [hlen32] at hseek hd hfp hraw
    rw [hmag] at hm
    simp only [FP.mk.injEq, true_and, and_true] at hfp
    have hsub : stop - Spec.digestSize h0.meta_checksum = stop - Spec.digestSize h0.meta_checksum := rfl
    refine ⟨m, u, h0.meta_options, h0.meta_checksum, h0.meta_codec, h0.meta_level, h0.meta_size, h0.max_meta_size, h0.meta_comp_size,
      i, j, _, raw, ⟨by omega, hok.2.1, hok.2.2.1, hok.2.2.2.1, hok.2.2.2.2.1, hok.2.2.2.2.2.1, hok.2.2.2.2.2.2.1, hok.2.2.2.2.2.2.2.1,
        by omega⟩, hm8, hu8, hm, hbytes, rfl, ?_, ?_, ?_, hraw, hload⟩
    · rcases hseek with hs | hs
      · exact .inl hs
      · exact .inr (by omega)
    · rw [hfp]
      congr 2
      omega
    · rw [hfp, Nat.add_sub_cancel]
      exact hd
  · rintro ⟨m, u, options, checksum, codec, level, size, maxSize, compSize, i, j, body, raw, hok, hm8, hu8, hm, hbytes, hbody, hseek, hstop,
      hd, hraw, hload⟩
    obtain ⟨k, l, t, e1, e2, e3⟩ := C06_strip_decomposition u
    have hpad : ∀ v : Bytes, v.length = 8 → Spec.padded8 v = v := by
      intro v hv
      unfold Spec.padded8
      rw [List.take_left' hv]
    have hdec : MetadataHeader.decode (slice fp.data fp.pos (fp.pos + 32)) =
        .ok ⟨[74, 83, 79, 78], options, checksum, codec, level, size, maxSize, compSize, t⟩ := by
      rw [hbytes]
      have h1 := MetadataHeader.decode_bytes (h := ⟨m, options, checksum, codec, level, size, maxSize, compSize, u⟩) hok
      rw [hpad m hm8, hpad u hu8] at h1
      simp only [decodeMagicString] at h1
      rw [hm, e1, stripNulls_spec i j _ (by decide) (by decide), stripNulls_spec k l t e2 e3, ← e1, ← hm] at h1
      refine Eq.trans h1 ((MetadataHeader.new_iff _ _).2 ⟨⟨by simp, hok.2.1, hok.2.2.1, hok.2.2.2.1, hok.2.2.2.2.1, hok.2.2.2.2.2.1,
        hok.2.2.2.2.2.2.1, hok.2.2.2.2.2.2.2.1, ?_⟩, rfl⟩)
      have : u.length = k + t.length + l := by rw [e1]; simp; omega
      simp only
      omega
    have hlen32 := (MetadataHeader.decode_ok hdec).2
    have hcomp : fpRead compSize = fpRead (compSize.toNat : Nat) := by
      have := hok.2.2.2.2.2.2.2.1.1
      rw [Int.toNat_of_nonneg this]
    refine ⟨⟨[74, 83, 79, 78], options, checksum, codec, level, size, maxSize, compSize, t⟩, ?_⟩
    rw [readMetadata_eq, Proc.bind_of_ok hread, Proc.bind_of_ok (Proc.ofExcept_apply _ _ |>.trans (by rw [hdec])), hlen32]
    simp only
    rw [hcomp, Proc.bind_of_ok (fpRead_at _ _), Proc.bind_of_ok (fpSeekRel_at _ _ ?_)]
    · refine (metaTail_iff E L _ hok.2.2.1 _ _ _ _ _).2 ⟨rfl, ?_, ?_, ?_⟩
      · refine (loadMetadata_iff E _ hok.2.2.2.1 _ _).2 ⟨rfl, raw, ?_, hload⟩
        simp only [← hbody]
        exact hraw
      · simp only [← hbody]
        rw [hstop, Nat.add_sub_cancel] at hd
        rw [← hd]
        congr 2 <;> omega
      · simp only [← hbody, hstop]
        congr 3
        omega
    · simp only [← hbody]
      rcases hseek with hs | hs
      · exact .inl hs
      · exact .inr (by omega)

/-- the offsets that `_read_offsets` accepts, and what follows them -/
theorem readOffsets_at (h : BloscpackHeader) (hok : h.OK) (fp : FP) (rest : Bytes) :
    (∃ os r, readOffsets h fp = (.ok os, { fp with pos := r }) ∧ fp.data.drop r = rest) ↔
      ∃ q : Nat, (h.offsets = true ∧ 0 ≤ h.nchunks ∧ (h.nchunks = 0 ∨ fp.pos + 8 * h.nchunks ≤ fp.data.length) ∧
          8 * (h.nchunks + h.max_app_chunks) < 2 ^ 63 ∧ q = fp.pos + 8 * (h.nchunks + h.max_app_chunks) ∨ h.offsets = false ∧ q = fp.pos) ∧
        fp.data.drop q = rest := by
  unfold readOffsets
  cases ho : h.offsets with
  | false =>
    simp only [Bool.false_eq_true, if_false, false_and, true_and, false_or]
    constructor
    · rintro ⟨os, r, h1, h2⟩
      refine ⟨_, rfl, ?_⟩
      simp only [Proc.pure_apply, Prod.mk.injEq, Except.ok.injEq] at h1
      have := congrArg FP.pos h1.2
      simp only at this
      rw [this]; exact h2
    · rintro ⟨q, rfl, h2⟩
      exact ⟨[], fp.pos, rfl, h2⟩
  | true =>
    simp only [if_true, true_and, false_and, or_false, Bool.true_eq_false]
    unfold BloscpackHeader.totalProspectiveChunks
    have hma := hok.2.2.2.2.2.2.1.1
    by_cases hn : 0 ≤ h.nchunks
    · rw [if_pos hn]
      by_cases hsm : 8 * (h.nchunks + h.max_app_chunks) ≥ 2 ^ 63
      · simp only
        rw [Proc.bind_of_error (Proc.raiseIf_pos hsm _ _)]
        constructor
        · rintro ⟨os, r, h1, -⟩
          cases h1
        · rintro ⟨q, ⟨-, -, h1, -⟩, -⟩
          omega
      have ht : (8 * (h.nchunks + h.max_app_chunks)) = ((8 * (h.nchunks + h.max_app_chunks)).toNat : Nat) := by omega
      simp only
      rw [Proc.bind_of_ok (Proc.raiseIf_neg hsm _ _)]
      rw [ht, Proc.bind_of_ok (fpRead_at fp _), Proc.ofExcept_apply]
      generalize hT : (8 * (h.nchunks + h.max_app_chunks)).toNat = T
      have hsl : (slice fp.data fp.pos (fp.pos + T)).length = min T (fp.data.length - fp.pos) := by
        simp [slice]
      have hdrop : fp.data.drop (fp.pos + (slice fp.data fp.pos (fp.pos + T)).length) = fp.data.drop (fp.pos + T) := by
        rw [hsl]
        by_cases hc : T ≤ fp.data.length - fp.pos
        · rw [Nat.min_eq_left hc]
        · rw [List.drop_eq_nil_of_le (by omega), List.drop_eq_nil_of_le (by omega)]
      constructor
      · rintro ⟨os, r, h1, h2⟩
        simp only [Prod.mk.injEq] at h1
        obtain ⟨h1, h3⟩ := h1
        have hr := congrArg FP.pos h3
        simp only at hr
        refine ⟨fp.pos + T, ⟨hn, ?_, by omega, by omega⟩, by rw [← hdrop, hr, h2]⟩
        by_cases hs : (slice fp.data fp.pos (fp.pos + T)).length < 8 * h.nchunks.toNat
        · obtain ⟨e, he⟩ := decodeOffsets_short _ _ hs
          rw [he] at h1; cases h1
        · rw [hsl] at hs
          omega
      · rintro ⟨q, ⟨-, h1, -, h2⟩, h3⟩
        have hq : q = fp.pos + T := by omega
        obtain ⟨os, h4, -⟩ := decodeOffsets_ok h.nchunks.toNat (slice fp.data fp.pos (fp.pos + T)) (by rw [hsl]; omega)
        exact ⟨os, _, by rw [h4], by rw [hdrop, ← hq, h3]⟩
    · rw [if_neg hn]
      constructor
      · rintro ⟨os, r, h1, -⟩
        cases h1
      · rintro ⟨q, ⟨h1, -⟩, -⟩
        exact absurd h1 hn

/-- the chunks that the unpacking loop accepts, and what it makes of them -/
theorem unpackLoop_at (E : Env μ) (L : E.Laws) (h : BloscpackHeader) {impl : Hash} (hi : impl ∈ checksums E.hashlib) (fp : FP) (n : Nat)
    (out : Bytes) :
    (∃ s t, unpackLoop (compressedFPSource h impl) (plainFPSinkPut E) n 0 (fp, { data := [] }) = (.ok (), (s, t)) ∧ t.data = out) ↔
      Spec.Chunks E impl.function (fp.data.drop fp.pos) n out := by
  constructor
  · rintro ⟨s, t, hu, rfl⟩
    by_cases hp : fp.pos ≤ fp.data.length
    · rw [Z_of fp hp] at hu
      have ho : ({ data := [] } : FP) = Z [] [] [] := rfl
      rw [ho] at hu
      obtain ⟨out', h3, h4⟩ := accepted_loop_any L hi _ _ _ _ _ _ _ _ _ _ hu
      rw [h4, List.nil_append]
      exact h3
    · cases n with
      | zero =>
        simp only [unpackLoop, Proc.pure_apply, Prod.mk.injEq] at hu
        obtain ⟨-, -, rfl⟩ := hu
        exact .done _
      | succ k =>
        obtain ⟨e, s', he⟩ := unpackLoop_exhausted (E := E) (h := h) (impl := impl) fp { data := [] } k 0 (by omega)
        rw [he] at hu; cases hu
  · -- chunks that are there are read
    have key : ∀ (n : Nat) (R out : Bytes), Spec.Chunks E impl.function R n out → ∀ (A O : Bytes) (l lo) (i : Nat),
        ∃ s lo', unpackLoop (compressedFPSource h impl) (plainFPSinkPut E) n i (Z A R l, Z O [] lo) = (.ok (), (s, Z (O ++ out) [] lo')) := by
      intro n R out hc
      induction hc with
      | done rest => intro A O l lo i; exact ⟨_, lo, by rw [List.append_nil]; rfl⟩
      | chunk c d rest n out hd _ ih =>
        intro A O l lo i
        obtain ⟨lo1, h1⟩ := unpackLoop_step L (h := h) hi A c rest l d O lo hd n i
        obtain ⟨s, lo2, h2⟩ := ih (A ++ (c ++ impl.function c)) (O ++ d) l lo1 (i + 1)
        refine ⟨s, lo2, ?_⟩
        rw [h1, h2, List.append_assoc]
      | undigested c d hd =>
        intro A O l lo i
        have hf := framed_of_decompress L hd
        obtain ⟨-, hr⟩ := unpackLoop_round (E := E) (h := h) (impl := impl) A c l O lo 0 i hf.1 _ _ _ rfl rfl rfl
        rw [hf.2, List.take_length, List.drop_length] at hr
        exact ⟨_, _, (hr (by simp)).2 d hd⟩
    intro hc
    have hfile : ∀ g : FP, g.inMemory = false → g.data = fp.data → g.pos = fp.pos →
        ∃ s t, unpackLoop (compressedFPSource h impl) (plainFPSinkPut E) n 0 (g, { data := [] }) = (.ok (), (s, t)) ∧ t.data = out := by
      intro g hm hd hp
      rw [← hd, ← hp] at hc
      by_cases hle : g.pos ≤ g.data.length
      · obtain ⟨s, lo', hk⟩ := key n _ _ hc (g.data.take g.pos) [] g.log [] 0
        have hz := Z_of g hle
        rw [hm] at hz
        refine ⟨s, Z ([] ++ out) [] lo', ?_, by simp⟩
        rw [← hk, ← hz]
        rfl
      · rw [List.drop_eq_nil_of_le (by omega)] at hc
        have hnil : ∀ (R : Bytes), R = [] → Spec.Chunks E impl.function R n out → n = 0 ∧ out = [] := by
          intro R hR hc
          cases hc with
          | done => exact ⟨rfl, rfl⟩
          | chunk c d rest k o hd _ =>
            have := (framed_of_decompress L hd).1
            have hl := congrArg List.length hR
            simp only [List.length_append, List.length_nil] at hl
            omega
          | undigested c d hd =>
            have := (framed_of_decompress L hd).1
            have hl := congrArg List.length hR
            simp only [List.length_nil] at hl
            omega
        obtain ⟨rfl, rfl⟩ := hnil _ rfl hc
        exact ⟨_, _, rfl, rfl⟩
    rcases fp.kind with hk | hk
    · exact hfile fp (by rw [hk]; rfl) rfl rfl
    · obtain ⟨s, t, h1, h2⟩ := hfile fp.toFile rfl rfl rfl
      have h3 := unpackLoop_toMemory h impl (plainFPSinkPut E) n 0 fp.toFile ({ data := [] } : FP)
      rw [h1, ← hk] at h3
      exact ⟨s.toMemory, t, h3, h2⟩

theorem SameKind.readMetadata (E : Env μ) : SameKind (readMetadata E) := by
  unfold Bloscpack.readMetadata
  repeat' first
    | refine bind ?_ fun _ => ?_
    | exact read _
    | exact ofExcept _
    | exact seekRel _
    | exact pure _
    | exact raiseIf _ _
    | split

theorem SameKind.readOffsets (h : BloscpackHeader) : SameKind (readOffsets h) := by
  unfold Bloscpack.readOffsets
  repeat' first
    | refine bind ?_ fun _ => ?_
    | exact read _
    | exact ofExcept _
    | exact pure _
    | exact raise _
    | exact raiseIf _ _
    | split

theorem FP.with_pos {fp fp' : FP} (hd : fp'.data = fp.data) (hl : fp'.log = fp.log) (hm : fp'.inMemory = fp.inMemory) :
    fp' = { fp with pos := fp'.pos } := by
  cases fp; cases fp'
  simp only at hd hl hm
  subst hd hl hm
  rfl

/-- exactly which contents of a file, or of a `BytesIO`, are unpacked, and to what -/
theorem unpackFP_iff (E : Env μ) (L : E.Laws) (b : Bool) (x out : Bytes) (md : Option μ) :
    unpackFP E { data := x, inMemory := b } = (.ok md, out) ↔ Spec.Archive E b x out md := by
  have hread : fpRead (BLOSCPACK_HEADER_LENGTH : Int) ({ data := x, inMemory := b } : FP) = _ := fpRead_at _ 32
  simp only [Nat.zero_add] at hread
  rw [← take_eq_slice] at hread
  constructor
  · intro h
    unfold unpackFP at h
    generalize hb : readBeginning E { data := x, inMemory := b } = w at h
    obtain ⟨r, fp⟩ := w
    cases r with
    | error e => cases h
    | ok r =>
      obtain ⟨hd, md', mh, os⟩ := r
      simp only at h
      cases hi : hd.checksumImpl E with
      | error e => rw [hi] at h; cases h
      | ok impl =>
        rw [hi] at h
        simp only [Prod.mk.injEq] at h
        obtain ⟨h1, h2⟩ := h
        generalize hu : unpack (compressedFPSource hd impl) (plainFPSinkPut E) (fp, { data := [] }) = u at h1 h2
        obtain ⟨ur, s, t⟩ := u
        cases ur with
        | error e => cases h1
        | ok w =>
          simp only [Except.map, Except.ok.injEq] at h1
          subst h1
          have hch := (unpackLoop_at E L hd (checksumLookup_mem hi).1 fp hd.nchunks.toNat out).1 ⟨s, t, hu, h2⟩
          -- the beginning
          unfold readBeginning at hb
          obtain ⟨hd', s1, e1, g1⟩ := Proc.bind_ok_iff.1 hb
          clear hb
          unfold readBloscpackHeader at e1
          rw [Proc.bind_of_ok hread] at e1
          obtain ⟨hd2, s2, e2, e3⟩ := Proc.bind_ok_iff.1 e1
          clear e1
          rw [Proc.ofExcept_apply, Prod.mk.injEq] at e2
          obtain ⟨hdec, rfl⟩ := e2
          obtain ⟨hok, hbytes⟩ := (BloscpackHeader.decode_iff _ _).1 hdec
          have h32 : (x.take 32).length = 32 := by rw [hbytes, hd2.bytes_length]
          have hver : hd2.format_version = 3 := by
            apply Classical.byContradiction
            intro hne
            have hbad : FORMAT_VERSION ≠ hd2.format_version := fun h => hne h.symm
            rw [Proc.bind_of_error (Proc.raiseIf_pos hbad _ _)] at e3
            cases e3
          rw [Proc.bind_of_ok (Proc.raiseIf_neg (by simp [FORMAT_VERSION, hver]) _ _), Proc.pure_apply] at e3
          simp only [Prod.mk.injEq, Except.ok.injEq, h32] at e3
          obtain ⟨rfl, rfl⟩ := e3
          obtain ⟨⟨m1, m2⟩, s3, e4, g2⟩ := Proc.bind_ok_iff.1 g1
          clear g1
          obtain ⟨os', s4, e5, g3⟩ := Proc.bind_ok_iff.1 g2
          clear g2
          simp only [Proc.pure_apply, Prod.mk.injEq, Except.ok.injEq] at g3
          obtain ⟨⟨rfl, rfl, rfl, rfl⟩, rfl⟩ := g3
          have hfields : Spec.HeaderFieldsOK 3 hd2.typesize hd2.chunk_size hd2.last_chunk hd2.nchunks hd2.max_app_chunks hd2.checksum := by
            rw [← hver]; exact hok
          have hx : x.take 32 = Spec.headerBytes 3 hd2.offsets hd2.metadata hd2.checksum hd2.typesize hd2.chunk_size hd2.last_chunk
              hd2.nchunks hd2.max_app_chunks := by
            rw [hbytes, BloscpackHeader.bytes, hver]
          -- the metadata
          obtain ⟨p, rfl, hmeta⟩ : ∃ p, s3 = { data := x, pos := p, inMemory := b } ∧
              (hd2.metadata = true ∧ Spec.MetadataAt E b x 32 p m1 ∨ hd2.metadata = false ∧ m1 = none ∧ p = 32) := by
            cases hmd : hd2.metadata with
            | false =>
              rw [hmd] at e4
              simp only [Bool.false_eq_true, if_false, Proc.pure_apply, Prod.mk.injEq, Except.ok.injEq] at e4
              obtain ⟨⟨rfl, rfl⟩, rfl⟩ := e4
              exact ⟨32, rfl, .inr ⟨rfl, rfl, rfl⟩⟩
            | true =>
              rw [hmd, if_pos rfl] at e4
              obtain ⟨⟨a1, a2⟩, s5, e6, e7⟩ := Proc.bind_ok_iff.1 e4
              simp only [Proc.pure_apply, Prod.mk.injEq, Except.ok.injEq] at e7
              obtain ⟨⟨rfl, -⟩, rfl⟩ := e7
              have r1 := ReadOnly.readMetadata E { data := x, pos := 0 + 32, inMemory := b }
              have r2 := SameKind.readMetadata E { data := x, pos := 0 + 32, inMemory := b }
              rw [e6] at r1 r2
              have hs := FP.with_pos r1.1 r1.2 r2
              refine ⟨s5.pos, hs, .inl ⟨rfl, ?_⟩⟩
              exact (readMetadata_at E L { data := x, pos := 0 + 32, inMemory := b } a1 s5.pos).1 ⟨a2, by rw [e6]; simp only; rw [← hs]⟩
          -- the offsets
          have r1 := ReadOnly.readOffsets hd2 { data := x, pos := p, inMemory := b }
          have r2 := SameKind.readOffsets hd2 { data := x, pos := p, inMemory := b }
          rw [e5] at r1 r2
          have hs := FP.with_pos r1.1 r1.2 r2
          obtain ⟨q, hq1, hq2⟩ := (readOffsets_at hd2 hok { data := x, pos := p, inMemory := b } (s4.data.drop s4.pos)).1
            ⟨os', s4.pos, by rw [e5]; simp only; rw [← hs], by rw [r1.1]⟩
          refine ⟨hd2.offsets, hd2.metadata, hd2.checksum, hd2.typesize, hd2.chunk_size, hd2.last_chunk, hd2.nchunks, hd2.max_app_chunks,
            p, q, hfields, hx, hmeta, ?_, ?_⟩
          · exact hq1
          · have hf : Spec.digest E hd2.checksum = impl.function := funext fun d => (digest_eq hi d).1.symm
            rw [hf]
            simp only at hq2
            rw [hq2]
            exact hch
  · rintro ⟨offsets, metadata, checksum, typesize, chunkSize, lastChunk, nchunks, maxApp, p, q, hok, hx, hmeta, hoff, hch⟩
    let h : BloscpackHeader := ⟨3, offsets, metadata, checksum, typesize, chunkSize, lastChunk, nchunks, maxApp⟩
    have hokh : h.OK := hok
    have hdec : BloscpackHeader.decode (x.take 32) = .ok h := (BloscpackHeader.decode_iff _ _).2 ⟨hokh, hx⟩
    have h32 : (x.take 32).length = 32 := by rw [hx]; exact h.bytes_length
    obtain ⟨impl, hi, -⟩ := checksumLookup_of (hl := E.hashlib) hokh.2.1
    have hhead : readBloscpackHeader { data := x, inMemory := b } = (.ok h, { data := x, pos := 32, inMemory := b }) := by
      unfold readBloscpackHeader
      rw [Proc.bind_of_ok hread, Proc.bind_of_ok (Proc.ofExcept_apply _ _ |>.trans (by rw [hdec])),
        Proc.bind_of_ok (Proc.raiseIf_neg (by simp [FORMAT_VERSION, h]) _ _), h32]
      rfl
    obtain ⟨mh, hmd⟩ : ∃ mh, (if h.metadata then do
        let r ← readMetadata E
        Proc.pure (r.1, some r.2)
        else Proc.pure (none, none) : Proc FP (Option μ × Option MetadataHeader)) { data := x, pos := 32, inMemory := b } =
        (.ok (md, mh), { data := x, pos := p, inMemory := b }) := by
      rcases hmeta with ⟨h1, h2⟩ | ⟨h1, rfl, rfl⟩
      · obtain ⟨mh, h3⟩ := (readMetadata_at E L { data := x, pos := 32, inMemory := b } md p).2 h2
        refine ⟨some mh, ?_⟩
        rw [if_pos h1, Proc.bind_of_ok h3]
        rfl
      · refine ⟨none, ?_⟩
        rw [if_neg (by simp [h, h1])]
        rfl
    obtain ⟨os, r, ho, hr⟩ := (readOffsets_at h hokh { data := x, pos := p, inMemory := b } (x.drop q)).2 ⟨q, hoff, rfl⟩
    have hbeg : readBeginning E { data := x, inMemory := b } = (.ok (h, md, mh, os), { data := x, pos := r, inMemory := b }) := by
      unfold readBeginning
      rw [Proc.bind_of_ok hhead, Proc.bind_of_ok hmd, Proc.bind_of_ok ho]
      rfl
    have hf : Spec.digest E checksum = impl.function := funext fun d => (digest_eq hi d).1.symm
    rw [hf, ← hr] at hch
    obtain ⟨s, t, hu, ht⟩ := (unpackLoop_at E L h (checksumLookup_mem hi).1 { data := x, pos := r, inMemory := b } nchunks.toNat out).2 hch
    unfold unpackFP
    rw [hbeg]
    have hci : h.checksumImpl E = .ok impl := hi
    have hu' : unpack (compressedFPSource h impl) (plainFPSinkPut E) ({ data := x, pos := r, inMemory := b }, { data := [] }) =
      (.ok (), (s, t)) := hu
    simp only [hci, hu', ht, Except.map]

/-- C81: `unpack_bytes_from_bytes` accepts exactly the archives, and returns exactly what they hold. -/
theorem C81_memory (E : Env μ) (L : E.Laws) (x out : Bytes) (md : Option μ) :
    unpackBytesFromBytes E x = .ok (out, md) ↔ Spec.Archive E true x out md := by
  rw [← unpackFP_iff E L]
  unfold unpackBytesFromBytes
  rcases unpackFP E ({ data := x, inMemory := true } : FP) with ⟨r, o⟩
  cases r with
  | error e => simp
  | ok m =>
    simp only [Except.ok.injEq, Prod.mk.injEq]
    exact and_comm

/-- C81: `unpack_bytes_from_file` accepts exactly the files that are archives, and returns exactly what they hold. -/
theorem C81_file (E : Env μ) (L : E.Laws) (fs : FS) (name : String) (out : Bytes) (md : Option μ) :
    unpackBytesFromFile E fs name = .ok (out, md) ↔ ∃ x, fs.files name = some x ∧ Spec.Archive E false x out md := by
  unfold unpackBytesFromFile FS.openRead
  cases hx : fs.files name with
  | none => simp
  | some x =>
    simp only [Option.some.injEq, exists_eq_left']
    rw [← unpackFP_iff E L]
    show (match unpackFP E { data := x } with | (.ok m, out) => _ | (.error e, _) => _) = _ ↔ _
    rcases unpackFP E ({ data := x } : FP) with ⟨r, o⟩
    cases r with
    | error e => simp
    | ok m =>
      simp only [Except.ok.injEq, Prod.mk.injEq]
      exact and_comm

/-- C81: `unpack_file_from_file`, with different input and output files, accepts exactly the files that are archives, returns the
metadata, and the output file holds exactly the data. -/
theorem C81_files (E : Env μ) (L : E.Laws) (fs : FS) (i o : String) (x out : Bytes) (md : Option μ) (hi : fs.files i = some x)
    (hw : fs.canWrite o = true) (hne : i ≠ o) :
    ((unpackFileFromFile E fs i o).1 = .ok md ∧ (unpackFileFromFile E fs i o).2.files o = some out) ↔ Spec.Archive E false x out md := by
  obtain ⟨h1, h2, -⟩ := C46_unpack_files E fs i o x hi hw hne
  constructor
  · rintro ⟨g1, g2⟩
    cases hu : unpackBytesFromFile E fs i with
    | error e =>
      obtain ⟨fs', h3⟩ := (h2 e).1 hu
      rw [h3] at g1
      cases g1
    | ok r =>
      obtain ⟨out', md'⟩ := r
      obtain ⟨fs', h3, h4⟩ := (h1 out' md').1 hu
      rw [h3] at g1 g2
      cases g1
      simp only at g2
      rw [h4] at g2
      cases g2
      obtain ⟨y, hy, ha⟩ := (C81_file E L fs i _ _).1 hu
      rw [hi] at hy
      cases hy
      exact ha
  · intro ha
    have hu := (C81_file E L fs i out md).2 ⟨x, hi, ha⟩
    obtain ⟨fs', h3, h4⟩ := (h1 out md).1 hu
    rw [h3]
    exact ⟨rfl, h4⟩

/-- an archive with one chunk, written down by hand -/
example : Spec.Archive Toy.env true (Spec.headerBytes 3 false false "None" 8 1 1 1 0 ++ [2, 1, 2, 8, 1, 0, 0, 0, 1, 0, 0, 0, 17, 0, 0, 0, 9])
    [9] none := by
  refine ⟨false, false, "None", 8, 1, 1, 1, 0, 32, 32, by unfold Spec.HeaderFieldsOK; decide, by decide, .inr ⟨rfl, rfl, rfl⟩,
    .inr ⟨rfl, rfl⟩, ?_⟩
  exact .undigested _ _ (by decide)

/-- an archive with checksums, metadata, reserved space for metadata, offsets and two chunks -/
example : ∃ x, x.length = 143 ∧ Spec.Archive Toy.env true x [1, 2, 3] (some 5) ∧ Spec.Archive Toy.env false x [1, 2, 3] (some 5) := by
  have hl : (packBytesToBytes Toy.env [1, 2, 3] (.int 2) (some 5) {} { max_app_chunks := .int 1 }
    { max_meta_size := .int 12, meta_checksum := "None" }).toOption.map List.length = some 143 := by decide +kernel
  cases h : packBytesToBytes Toy.env [1, 2, 3] (.int 2) (some 5) {} { max_app_chunks := .int 1 }
      { max_meta_size := .int 12, meta_checksum := "None" } with
  | error e => rw [h] at hl; cases hl
  | ok x =>
    rw [h] at hl
    refine ⟨x, Option.some.inj hl, ?_⟩
    obtain ⟨F, n, c, l, m', rfl, hF, hj, h1, h2, -⟩ := packBytesToBytes_ok Toy.laws h
    have hu := unpackFrom_file Toy.laws hF.toValid
    rw [h1, h2] at hu
    exact ⟨(unpackFP_iff _ Toy.laws true _ _ _).1 (unpackFP_of_ok hu), (unpackFP_iff _ Toy.laws false _ _ _).1 hu⟩

end Bloscpack
