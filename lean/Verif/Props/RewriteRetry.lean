import Verif.Props.RewriteCrash
import Verif.Props.Rewrite
import Verif.Props.Unreadable
/-
C104: what happens when an interrupted rewrite of the metadata is repeated.
-/
namespace Bloscpack
variable {μ : Type}

section
variable {E : Env μ} {F : File μ}

/-- rewriting a section of the right size, whatever its contents -/
theorem rewrite_over (L : E.Laws) {hd : BloscpackHeader} (hok : hd.OK) (hver : hd.format_version = 3) (hflag : hd.metadata = true)
    (S R : Bytes) {h : MetadataHeader} (hdec : MetadataHeader.decode (S.take 32) = .ok h)
    {impl : Hash} (hi : checksumLookup E.hashlib h.meta_checksum = .ok impl) (hlen : (S.length : Int) = 32 + h.max_meta_size + impl.size)
    (hfit : h.meta_comp_size ≤ h.max_meta_size + impl.size + R.length) (md : Option μ) (x : RewriteArgs) (fp : FP)
    (hrun : rewriteMetadata E md x { data := hd.bytes ++ (S ++ R) } = (.ok (), fp)) :
    ∃ s' : Section μ, s'.Valid E ∧ s'.metadata = md ∧ (s'.bytes E).length = S.length ∧ fp.data = hd.bytes ++ (s'.bytes E ++ R) := by
  have hz : ({ data := hd.bytes ++ (S ++ R) } : FP) = Z [] (hd.bytes ++ (S ++ R)) [] := rfl
  have hseek : seekToMetadata (Z [] (hd.bytes ++ (S ++ R)) []) = (.ok 32, Z hd.bytes (S ++ R) []) := by
    unfold seekToMetadata
    rw [Proc.bind_of_ok (readHeader_ok hok hver _ _ _), Proc.bind_of_ok (Proc.raiseIf_neg (by simp [hflag]) _ _), List.nil_append]
    simp [fpTell_eq, BloscpackHeader.bytes_length]
  have htell : fpTell (Z hd.bytes (S ++ R) []) = (.ok 32, Z hd.bytes (S ++ R) []) := by
    simp [fpTell_eq, BloscpackHeader.bytes_length]
  unfold rewriteMetadata rewriteMetadataFp at hrun
  rw [hz, Proc.bind_of_ok hseek, Proc.bind_of_ok htell] at hrun
  rcases readMetadata_place L hd.bytes S R [] hdec hi hlen hfit with ⟨e, fp', h1⟩ | ⟨m0, h1⟩
  · rw [Proc.bind_of_error h1] at hrun; cases hrun
  · rw [Proc.bind_of_ok h1] at hrun
    simp only at hrun
    cases heq : E.metaEq m0 md with
    | true => rw [Proc.bind_of_error (Proc.raiseIf_pos heq _ _)] at hrun; cases hrun
    | false =>
      rw [Proc.bind_of_ok (Proc.raiseIf_neg (by simp [heq]) _ _)] at hrun
      cases hm : recreateMetadata E h x with
      | error e => rw [hm, Proc.bind_of_error (Proc.ofExcept_apply _ _)] at hrun; cases hrun
      | ok m =>
        obtain ⟨m1, impl', m2, m3⟩ := recreateMetadata_ok hm hi
        rw [hm, Proc.bind_of_ok (Proc.ofExcept_apply _ _),
          Proc.bind_of_ok (fpSeek_Z _ _ hd.bytes (S ++ R) [] _ (by simp) (by rw [BloscpackHeader.bytes_length]))] at hrun
        cases hS : prepareMetadata E md m with
        | error e =>
          have hw : writeMetadata E md m (Z hd.bytes (S ++ R) []) = (.error e, Z hd.bytes (S ++ R) []) := by
            unfold writeMetadata
            rw [Proc.bind_of_error (Proc.ofExcept_apply _ _ |>.trans (by rw [hS]))]
          rw [Proc.bind_of_error hw] at hrun
          cases hrun
        | ok M =>
          obtain ⟨s', hp⟩ := prepareMetadata_ok L hS
          rw [← wrote_nil hd.bytes, Proc.bind_of_ok (writeMetadata_wrote L hS hp _ _ _ _)] at hrun
          have hr : (Except.ok (), wrote hd.bytes (S ++ R) [] ([] ++ secWrites E s')) = ((Except.ok () : Except Err Unit), fp) := hrun
          simp only [Prod.mk.injEq, true_and] at hr
          subst hr
          have hmax : s'.header.max_meta_size = h.max_meta_size := by
            obtain ⟨_, -, -, -, -, -, h⟩ := hp.raw
            simp only [MetadataArgs.effectiveMaxMetaSize, m1] at h
            simp only [Except.ok.injEq] at h; exact h.symm
          have hsize : (s'.impl E).size = impl.size := by
            have h1 := (Section.lookup hp.valid).1
            rw [hp.checksum, m2] at h1
            cases h1; exact m3
          have hl : (s'.bytes E).length = S.length := by
            have h1 := Section.bytes_length L hp.valid
            rw [hmax, hsize] at h1
            omega
          refine ⟨s', hp.valid, hp.metadata, hl, ?_⟩
          simp only [wrote, List.nil_append, secWrites_flatten hp.valid, hl, List.drop_left]
          simp

/-- repeating a rewrite over a metadata section that is a mixture of an old and a new one of the same shape -/
theorem rewrite_mixed (L : E.Laws) (hc : F.Conforming E) {s s' : Section μ} (hs : F.sec = some s) (hs' : s'.Valid E)
    (hmax : s'.header.max_meta_size = s.header.max_meta_size) (hsize : (s'.impl E).size = (s.impl E).size) (k : Nat)
    (hkl : k ≤ (s.bytes E).length)
    (hk : 32 ≤ k ∨ s.header.max_meta_size ≤ (F.offsets ++ (F.body E ++ F.junk)).length) (md : Option μ) (x : RewriteArgs) (fp : FP)
    (hrun : rewriteMetadata E md x { data := F.header.bytes ++ (((s'.bytes E).take k ++ (s.bytes E).drop k) ++
      (F.offsets ++ (F.body E ++ F.junk))) } = (.ok (), fp)) :
    unpackBytesFromBytes E fp.data = .ok (F.data, md) := by
  have hvs := hc.sec_ok s hs
  have l1 := Section.bytes_length L hvs
  have l2 := Section.bytes_length L hs'
  rw [hmax, hsize] at l2
  have hflag : F.header.metadata = true := by rw [hc.meta_flag, hs]; rfl
  generalize hSS : (s'.bytes E).take k ++ (s.bytes E).drop k = S at hrun
  have hSl : S.length = (s.bytes E).length := by rw [← hSS]; simp; omega
  have hb : (s.header.bytes).length = 32 := s.header.bytes_length
  have hb' : (s'.header.bytes).length = 32 := s'.header.bytes_length
  have hS32 : S.take 32 = s'.header.bytes.take (min k 32) ++ s.header.bytes.drop (min k 32) := by
    have a1 : (s.bytes E).take 32 = s.header.bytes := by unfold Section.bytes; exact List.take_left' hb
    have a2 : (s'.bytes E).take 32 = s'.header.bytes := by unfold Section.bytes; exact List.take_left' hb'
    have hm := slice_mix (a := s'.bytes E) (b := s.bytes E) (by omega) (k := k) (by omega) 0 32
    rw [hSS] at hm
    simp only [slice, List.drop_zero, Nat.sub_zero, a1, a2] at hm
    rw [hm]
    by_cases h32 : k ≤ 32
    · rw [Nat.min_eq_left h32]
    · rw [Nat.min_eq_right (by omega), List.take_of_length_le (by omega), List.take_of_length_le (by omega),
        List.drop_eq_nil_of_le (by omega), List.drop_eq_nil_of_le (by omega)]
  have hS : 32 ≤ S.length := by rw [hSl]; simp [Section.bytes, hb]
  cases hd : MetadataHeader.decode (S.take 32) with
  | error e =>
    exfalso
    have hz : ({ data := F.header.bytes ++ (S ++ (F.offsets ++ (F.body E ++ F.junk))) } : FP) =
      Z [] (F.header.bytes ++ (S ++ (F.offsets ++ (F.body E ++ F.junk)))) [] := rfl
    have hseek : seekToMetadata (Z [] (F.header.bytes ++ (S ++ (F.offsets ++ (F.body E ++ F.junk)))) []) =
        (.ok 32, Z F.header.bytes (S ++ (F.offsets ++ (F.body E ++ F.junk))) []) := by
      unfold seekToMetadata
      rw [Proc.bind_of_ok (readHeader_ok hc.ok hc.version _ _ _), Proc.bind_of_ok (Proc.raiseIf_neg (by simp [hflag]) _ _), List.nil_append]
      simp [fpTell_eq, BloscpackHeader.bytes_length]
    have htell : fpTell (Z F.header.bytes (S ++ (F.offsets ++ (F.body E ++ F.junk))) []) =
        (.ok 32, Z F.header.bytes (S ++ (F.offsets ++ (F.body E ++ F.junk))) []) := by
      simp [fpTell_eq, BloscpackHeader.bytes_length]
    have hr : readMetadata E (Z F.header.bytes (S ++ (F.offsets ++ (F.body E ++ F.junk)))) =
        (.error e, Z (F.header.bytes ++ S.take 32) (S.drop 32 ++ (F.offsets ++ (F.body E ++ F.junk)))) := by
      unfold readMetadata
      have e1 : fpRead METADATA_HEADER_LENGTH (Z F.header.bytes (S ++ (F.offsets ++ (F.body E ++ F.junk)))) =
          (.ok (S.take 32), Z (F.header.bytes ++ S.take 32) (S.drop 32 ++ (F.offsets ++ (F.body E ++ F.junk)))) := by
        conv => lhs; rw [← List.take_append_drop 32 S]
        rw [List.append_assoc]
        exact fpRead_exact _ _ _ _ _ (by simp [METADATA_HEADER_LENGTH]; omega)
      rw [Proc.bind_of_ok e1, Proc.bind_of_error (Proc.ofExcept_apply _ _ |>.trans (by rw [hd]))]
    unfold rewriteMetadata rewriteMetadataFp at hrun
    rw [hz, Proc.bind_of_ok hseek, Proc.bind_of_ok htell, Proc.bind_of_error hr] at hrun
    cases hrun
  | ok h =>
    have hd' := hd
    rw [hS32] at hd'
    obtain ⟨m1, m2, m3⟩ := mixed_header (Section.decode_header hvs) (Section.decode_header hs') hmax (Nat.min_le_right _ _) hd'
    obtain ⟨impl, i1, i2⟩ : ∃ impl, checksumLookup E.hashlib h.meta_checksum = .ok impl ∧ impl.size = (s.impl E).size := by
      rcases m2 with m2 | m2 <;> rw [m2]
      · exact ⟨_, (Section.lookup hvs).1, rfl⟩
      · exact ⟨_, (Section.lookup hs').1, hsize⟩
    have f1 := hvs.fits
    have f2 := hs'.fits
    have hfit : h.meta_comp_size ≤ h.max_meta_size + impl.size + (F.offsets ++ (F.body E ++ F.junk)).length := by
      rcases hk with hk | hk
      · have : h = s'.header := by
          rw [Nat.min_eq_right hk, ← hb', List.take_length, hb', ← hb, List.drop_length, List.append_nil, Section.decode_header hs'] at hd'
          exact (Except.ok.inj hd').symm
        rw [this]; omega
      · omega
    obtain ⟨s2, g1, g2, g3, g4⟩ := rewrite_over L hc.ok hc.version hflag S _ hd i1 (by rw [hSl, l1, m1, i2]) hfit md x fp hrun
    have hF := hc.replaceSec hs g1 (by rw [g3, hSl])
    have := unpack_conforming L hF.toValid
    rw [g4]
    have e1 : File.bytes E { F with sec := some s2 } = F.header.bytes ++ (s2.bytes E ++ (F.offsets ++ (F.body E ++ F.junk))) := by
      simp [File.bytes, File.front, File.secBytes, File.body, File.impl]
    rw [e1] at this
    rw [this]
    simp [File.data, File.metadata, g2]

/-- reading what a rewrite leaves that was interrupted after the body and before the digest -/
theorem readMetadata_undigested (L : E.Laws) {s s' : Section μ} (hs : s.Valid E) (hs' : s'.Valid E)
    (hmax : s'.header.max_meta_size = s.header.max_meta_size) (hsize : (s'.impl E).size = (s.impl E).size) (k : Nat)
    (hk1 : 32 + s'.body.length ≤ k) (hk2 : (k : Int) ≤ 32 + s.header.max_meta_size)
    (hne : (s.impl E).function s.body ≠ (s'.impl E).function s'.body) (A R : Bytes) :
    (readMetadata E (Z A (((s'.bytes E).take k ++ (s.bytes E).drop k) ++ R) [])).1 = .error .checksumMismatch := by
  have hb' : (s'.header.bytes).length = 32 := s'.header.bytes_length
  have hb : (s.header.bytes).length = 32 := s.header.bytes_length
  have z' := hs'.size
  have z := hs.size
  have f' := hs'.fits
  have f := hs.fits
  have g := Hash.size_eq L (Section.lookup hs).2.1 s.body
  have hp' : (s'.prealloc : Int) = s'.header.max_meta_size - s'.header.meta_comp_size := by unfold Section.prealloc; omega
  have hp : (s.prealloc : Int) = s.header.max_meta_size - s.header.meta_comp_size := by unfold Section.prealloc; omega
  obtain ⟨T, hT, eT⟩ : ∃ T, T.length = k - 32 - s'.body.length ∧ (s'.bytes E).take k = s'.header.bytes ++ (s'.body ++ T) := by
    refine ⟨(List.replicate s'.prealloc 0).take (k - 32 - s'.body.length), by simp; omega, ?_⟩
    unfold Section.bytes
    rw [List.take_append, List.take_of_length_le (by omega), List.take_append, List.take_of_length_le (by omega), hb',
      List.take_append_of_le_length (by simp; omega)]
  obtain ⟨U, hU, eU⟩ : ∃ U, (U.length : Int) = 32 + s.header.max_meta_size - k ∧ (s.bytes E).drop k = U ++ (s.impl E).function s.body := by
    refine ⟨(s.header.bytes ++ (s.body ++ List.replicate s.prealloc 0)).drop k, by simp [hb]; omega, ?_⟩
    unfold Section.bytes
    rw [← List.append_assoc s.body, ← List.append_assoc s.header.bytes, List.drop_append_of_le_length (by simp [hb]; omega)]
  rw [eT, eU]
  have hd := digest_eq (Section.lookup hs').1 s'.body
  rw [readMetadata_error_ok E (Z A (s'.header.bytes ++ (s'.body ++ T) ++ (U ++ (s.impl E).function s.body) ++ R) []) s'.header
    (by
      rw [show slice (Z A (s'.header.bytes ++ (s'.body ++ T) ++ (U ++ (s.impl E).function s.body) ++ R) []).data
          (Z A (s'.header.bytes ++ (s'.body ++ T) ++ (U ++ (s.impl E).function s.body) ++ R) []).pos
          ((Z A (s'.header.bytes ++ (s'.body ++ T) ++ (U ++ (s.impl E).function s.body) ++ R) []).pos + 32) = s'.header.bytes from by
        simp only [Z, slice, Nat.add_sub_cancel_left, List.drop_left, List.append_assoc]
        rw [List.take_left' hb']]
      exact Section.decode_header hs')
    s'.body
    (by
      simp only [Z, slice, Nat.add_sub_cancel_left, List.append_assoc, z', Int.toNat_natCast]
      rw [← List.append_assoc A, List.drop_left' (by simp [hb']), List.take_left])
    (A.length + 32 + s.header.max_meta_size) (by simp only [Z]; push_cast; omega)]
  right
  refine ⟨.inr (by omega), .inl ⟨?_, rfl⟩⟩
  rw [← hd.1, ← hd.2, hsize]
  have : slice (Z A (s'.header.bytes ++ (s'.body ++ T) ++ (U ++ (s.impl E).function s.body) ++ R) []).data
      ((A.length : Int) + 32 + s.header.max_meta_size).toNat (((A.length : Int) + 32 + s.header.max_meta_size).toNat + (s.impl E).size) =
      (s.impl E).function s.body := by
    simp only [Z, slice, Nat.add_sub_cancel_left, List.append_assoc]
    rw [show A ++ (s'.header.bytes ++ (s'.body ++ (T ++ (U ++ ((s.impl E).function s.body ++ R))))) =
      (A ++ (s'.header.bytes ++ (s'.body ++ (T ++ U)))) ++ ((s.impl E).function s.body ++ R) by simp,
      List.drop_left' (by simp [hb']; omega), List.take_left' g]
  rw [this]
  exact hne

end

/-! ### C104 -/

/-- C104: when a rewrite of the metadata was interrupted between two writes and a second rewrite succeeds, the file unpacks to the same
data and the metadata of the second. -/
theorem C104_repeated_partial (E : Env μ) (L : E.Laws) (F : File μ) (hc : F.Conforming E) (md : Option μ) (x : RewriteArgs)
    (r : Except Err Unit) (fp : FP) (hrun : rewriteMetadata E md x { data := F.bytes E } = (r, fp))
    (d : Bytes) (hstop : Spec.StoppedBetween (F.bytes E) fp.log d)
    (md2 : Option μ) (x2 : RewriteArgs) (fp2 : FP) (hagain : rewriteMetadata E md2 x2 { data := d } = (.ok (), fp2)) :
    unpackBytesFromBytes E fp2.data = .ok (F.data, md2) := by
  have hold : d = F.bytes E → unpackBytesFromBytes E fp2.data = .ok (F.data, md2) := by
    rintro rfl
    exact (C10_rewrite E L F hc md2 x2 fp2 hagain).1
  rcases rewrite_run L hc md x [] _ _ hrun with ⟨e, -, -, hl, -⟩ | ⟨s, s', h1, h2, h3, h4, -, -, -, hl, hmax, hsize, -⟩
  · rw [hl] at hstop
    obtain ⟨done, todo, h1, rfl⟩ := hstop
    rw [(List.append_eq_nil_iff.1 h1.symm).1] at hold
    exact hold rfl
  · have hs : F.secBytes E = s.bytes E := by simp [File.secBytes, h1]
    have hb := F.header.bytes_length
    have e1 : F.bytes E = F.header.bytes ++ (s.bytes E ++ (F.offsets ++ (F.body E ++ F.junk))) := by
      simp [File.bytes, File.front, hs]
    have hf := secWrites_flatten h2
    have e2 : ∃ rest, secWrites E s' = s'.header.bytes :: rest := ⟨_, rfl⟩
    obtain ⟨rest, e2⟩ := e2
    rw [hl, List.nil_append, e1, ← hb, e2] at hstop
    rw [e2] at hf
    rcases stopped_inside (by rw [hf, h4]) hstop with h | ⟨k, hk1, hk2, h⟩
    · rw [← e1] at h; exact hold h
    · rw [hf] at h
      rw [h] at hagain
      exact rewrite_mixed L hc h1 h2 hmax hsize k hk2 (.inl (by rw [MetadataHeader.bytes_length] at hk1; exact hk1)) md2 x2 fp2 hagain

/-- C104: the same for an interruption in the middle of a write, if what follows the metadata section is at least as long as the space
reserved for metadata. -/
theorem C104_torn_partial (E : Env μ) (L : E.Laws) (F : File μ) (hc : F.Conforming E) (md : Option μ) (x : RewriteArgs)
    (r : Except Err Unit) (fp : FP) (hrun : rewriteMetadata E md x { data := F.bytes E } = (r, fp))
    (d : Bytes) (hcrash : Spec.Crashed (F.bytes E) fp.log d) (hroom : 2 * (F.secBytes E).length ≤ (F.bytes E).length)
    (md2 : Option μ) (x2 : RewriteArgs) (fp2 : FP) (hagain : rewriteMetadata E md2 x2 { data := d } = (.ok (), fp2)) :
    unpackBytesFromBytes E fp2.data = .ok (F.data, md2) := by
  have hold : d = F.bytes E → unpackBytesFromBytes E fp2.data = .ok (F.data, md2) := by
    rintro rfl
    exact (C10_rewrite E L F hc md2 x2 fp2 hagain).1
  rcases rewrite_run L hc md x [] _ _ hrun with ⟨e, -, -, hl, -⟩ | ⟨s, s', h1, h2, h3, h4, -, -, -, hl, hmax, hsize, -⟩
  · rw [hl] at hcrash
    rcases hcrash with h | ⟨done, p, bs, todo, t, h1, -⟩
    · exact hold h
    · cases done <;> cases h1
  · have hs : F.secBytes E = s.bytes E := by simp [File.secBytes, h1]
    have hb := F.header.bytes_length
    have hsb := Section.bytes_length L (hc.sec_ok s h1)
    have e1 : F.bytes E = F.header.bytes ++ (s.bytes E ++ (F.offsets ++ (F.body E ++ F.junk))) := by
      simp [File.bytes, File.front, hs]
    have hl1 : (F.bytes E).length = 32 + ((s.bytes E).length + (F.offsets ++ (F.body E ++ F.junk)).length) := by
      rw [e1, List.length_append, hb, List.length_append]
    rw [hl, List.nil_append, e1, ← hb] at hcrash
    obtain ⟨k, hk, hd⟩ := crashed_inside (by rw [secWrites_flatten h2, h4]) hcrash
    rw [hd, secWrites_flatten h2] at hagain
    rw [hs, hl1] at hroom
    exact rewrite_mixed L hc h1 h2 hmax hsize k hk (.inr (by omega)) md2 x2 fp2 hagain

/-- C104 is violated: if the old and the new digest of the metadata differ and the rewrite is interrupted after it has written the
metadata but before it has finished, the file cannot be unpacked, no metadata can ever be written to it again and nothing can be
appended to it. All of these raise `ChecksumMismatch` and do not touch the file. -/
theorem C104_stuck_violated (E : Env μ) (L : E.Laws) (F : File μ) (hc : F.Conforming E) (md : Option μ) (x : RewriteArgs) (fp : FP)
    (hrun : rewriteMetadata E md x { data := F.bytes E } = (.ok (), fp)) (s : Section μ) (hs : F.sec = some s) (at_ : Nat)
    (hat : (at_ : Int) = 64 + s.header.max_meta_size)
    (hne : (fp.data.drop at_).take (Spec.digestSize s.header.meta_checksum) ≠
      ((F.bytes E).drop at_).take (Spec.digestSize s.header.meta_checksum))
    (done todo : List (Nat × Bytes)) (hlog : fp.log = done ++ todo) (hdone : 2 ≤ done.length) (htodo : todo ≠ []) :
    unpackBytesFromBytes E (Spec.replay (F.bytes E) done) = .error .checksumMismatch ∧
    (∀ md2 x2, ∃ fp2, rewriteMetadata E md2 x2 { data := Spec.replay (F.bytes E) done } = (.error .checksumMismatch, fp2) ∧
      fp2.data = Spec.replay (F.bytes E) done) ∧
    (∀ new args, ∃ fp2, appendFile E (Spec.replay (F.bytes E) done) new args = (.error .checksumMismatch, fp2) ∧
      fp2.data = Spec.replay (F.bytes E) done) := by
  rcases rewrite_run L hc md x [] _ _ hrun with ⟨e, h, -⟩ | ⟨s0, s', h1, h2, h3, h4, -, -, hdata, hl, hmax, hsize, -⟩
  · cases h
  rw [hs] at h1; cases h1
  have hvs := hc.sec_ok s hs
  have hflag : F.header.metadata = true := by rw [hc.meta_flag, hs]; rfl
  have hsb : F.secBytes E = s.bytes E := by simp [File.secBytes, hs]
  have hb := F.header.bytes_length
  have hb1 : (s.header.bytes).length = 32 := s.header.bytes_length
  have hb2 : (s'.header.bytes).length = 32 := s'.header.bytes_length
  have z' := h2.size
  have z := hvs.size
  have f' := h2.fits
  have f := hvs.fits
  have g := Hash.size_eq L (Section.lookup hvs).2.1 s.body
  have g' := Hash.size_eq L (Section.lookup h2).2.1 s'.body
  have hp' : (s'.prealloc : Int) = s'.header.max_meta_size - s'.header.meta_comp_size := by unfold Section.prealloc; omega
  have hp : (s.prealloc : Int) = s.header.max_meta_size - s.header.meta_comp_size := by unfold Section.prealloc; omega
  have e1 : F.bytes E = F.header.bytes ++ (s.bytes E ++ (F.offsets ++ (F.body E ++ F.junk))) := by
    simp [File.bytes, File.front, hsb]
  have e1' : File.bytes E { F with sec := some s' } = F.header.bytes ++ (s'.bytes E ++ (F.offsets ++ (F.body E ++ F.junk))) := by
    simp [File.bytes, File.front, File.secBytes, File.body, File.impl]
  have hdig : (s.impl E).function s.body ≠ (s'.impl E).function s'.body := by
    intro h
    apply hne
    have hz := (digest_eq (Section.lookup hvs).1 s.body).2
    rw [hdata, e1, e1', ← hz]
    unfold Section.bytes
    rw [show F.header.bytes ++ (s'.header.bytes ++ (s'.body ++ (List.replicate s'.prealloc 0 ++ (s'.impl E).function s'.body)) ++
        (F.offsets ++ (F.body E ++ F.junk))) = (F.header.bytes ++ (s'.header.bytes ++ (s'.body ++ List.replicate s'.prealloc 0))) ++
        ((s'.impl E).function s'.body ++ (F.offsets ++ (F.body E ++ F.junk))) by simp,
      show F.header.bytes ++ (s.header.bytes ++ (s.body ++ (List.replicate s.prealloc 0 ++ (s.impl E).function s.body)) ++
        (F.offsets ++ (F.body E ++ F.junk))) = (F.header.bytes ++ (s.header.bytes ++ (s.body ++ List.replicate s.prealloc 0))) ++
        ((s.impl E).function s.body ++ (F.offsets ++ (F.body E ++ F.junk))) by simp,
      List.drop_left' (by simp [hb, hb2]; omega), List.drop_left' (by simp [hb, hb1]; omega), h]
  -- what was written
  rw [hl, List.nil_append] at hlog
  obtain ⟨W, V, hW, rfl⟩ := seqLog_prefix _ _ hlog
  have hV : V ≠ [] := by
    rintro rfl
    rw [List.append_nil] at hW
    rw [hW] at hlog
    exact htodo (List.append_cancel_left (hlog.symm.trans (List.append_nil _).symm))
  have hseq : ∀ (p : Nat) (bss : List Bytes), (seqLog p bss).length = bss.length := by
    intro p bss
    induction bss generalizing p with
    | nil => rfl
    | cons b bss ih => simp [seqLog, ih]
  have hWl : 2 ≤ W.length := by rw [hseq] at hdone; exact hdone
  have hcs : s'.header.meta_checksum ≠ "None" := by
    intro h
    have h0 : (s'.impl E).size = 0 := by
      have := (digest_eq (Section.lookup h2).1 s'.body).2
      rw [this, h]; decide
    exact hdig ((List.eq_nil_of_length_eq_zero (by omega)).trans (List.eq_nil_of_length_eq_zero (by omega)).symm)
  have hinit : W ++ V.dropLast = [s'.header.bytes, s'.body] ++ List.replicate s'.prealloc [0] := by
    unfold secWrites at hW
    rw [if_pos hcs, ← List.dropLast_concat_getLast hV, ← List.append_assoc] at hW
    exact (List.append_inj_left' hW rfl).symm
  obtain ⟨W1, rfl, hW1⟩ : ∃ W1, W = s'.header.bytes :: s'.body :: W1 ∧ W1 ++ V.dropLast = List.replicate s'.prealloc [0] := by
    match W, hWl, hinit with
    | a :: b :: W1, _, h =>
      simp only [List.cons_append, List.cons.injEq, List.nil_append] at h
      obtain ⟨rfl, rfl, h⟩ := h
      exact ⟨W1, rfl, h⟩
  have hW2 : W1.flatten.length ≤ s'.prealloc := by
    have := congrArg (fun l => l.flatten.length) hW1
    simp at this
    simp; omega
  have hf := secWrites_flatten h2
  rw [hW, List.flatten_append] at hf
  generalize hk : (s'.header.bytes :: s'.body :: W1).flatten.length = k at *
  have hkk : k = 32 + s'.body.length + W1.flatten.length := by
    rw [← hk]; simp [hb2]; omega
  have htake : (s'.header.bytes :: s'.body :: W1).flatten = (s'.bytes E).take k := by
    rw [← hf, ← hk, List.take_left]
  have l1 := Section.bytes_length L hvs
  have hrep : Spec.replay (F.bytes E) (seqLog 32 (s'.header.bytes :: s'.body :: W1)) =
      F.header.bytes ++ (((s'.bytes E).take k ++ (s.bytes E).drop k) ++ (F.offsets ++ (F.body E ++ F.junk))) := by
    rw [e1, ← hb, replay_seqLog_over, hk, htake, List.drop_append_of_le_length (by omega), List.append_assoc]
  have hread := readMetadata_undigested L hvs h2 hmax hsize k (by omega) (by omega) hdig F.header.bytes (F.offsets ++ (F.body E ++ F.junk))
  rw [hrep]
  generalize hS : (s'.bytes E).take k ++ (s.bytes E).drop k = S at *
  obtain ⟨fp1, hread⟩ : ∃ fp1, readMetadata E (Z F.header.bytes (S ++ (F.offsets ++ (F.body E ++ F.junk))) []) =
      (.error .checksumMismatch, fp1) := ⟨_, Prod.ext hread rfl⟩
  have hbeg : readBeginning E (Z [] (F.header.bytes ++ (S ++ (F.offsets ++ (F.body E ++ F.junk)))) []) = (.error .checksumMismatch, fp1) := by
    unfold readBeginning
    rw [Proc.bind_of_ok (readHeader_ok hc.ok hc.version [] _ [])]
    simp only [hflag, if_true, List.nil_append]
    exact Proc.bind_of_error (Proc.bind_of_error hread)
  generalize hR : F.offsets ++ (F.body E ++ F.junk) = R at *
  have hz : ({ data := F.header.bytes ++ (S ++ R) } : FP) = Z [] (F.header.bytes ++ (S ++ R)) [] := rfl
  refine ⟨unpackBytes_error (o := []) ?_ (by decide), fun md2 x2 => ?_, fun new args => ?_⟩
  · unfold unpackFrom unpackFP
    rw [hz, hbeg]
  · have hr : ∃ fp2, rewriteMetadata E md2 x2 { data := F.header.bytes ++ (S ++ R) } = (.error .checksumMismatch, fp2) := by
      have hseek : seekToMetadata (Z [] (F.header.bytes ++ (S ++ R)) []) = (.ok 32, Z F.header.bytes (S ++ R) []) := by
        unfold seekToMetadata
        rw [Proc.bind_of_ok (readHeader_ok hc.ok hc.version _ _ _), Proc.bind_of_ok (Proc.raiseIf_neg (by simp [hflag]) _ _), List.nil_append]
        simp [fpTell_eq, BloscpackHeader.bytes_length]
      have htell : fpTell (Z F.header.bytes (S ++ R) []) = (.ok 32, Z F.header.bytes (S ++ R) []) := by
        simp [fpTell_eq, BloscpackHeader.bytes_length]
      unfold rewriteMetadata rewriteMetadataFp
      rw [hz, Proc.bind_of_ok hseek, Proc.bind_of_ok htell, Proc.bind_of_error hread]
      exact ⟨_, rfl⟩
    obtain ⟨fp2, hr⟩ := hr
    exact ⟨fp2, hr, (C11_failed_rewrite_untouched E _ _ _ _ _ hr).1⟩
  · refine ⟨fp1, ?_, readBeginning_data hbeg⟩
    unfold appendFile appendFp appendFrom
    rw [hz, Proc.bind_of_error hbeg]

/-- A rewrite of eleven writes, interrupted after each of them and repeated: from the body on this raises until the digest is written,
after that as the metadata is already there. -/
example : (packBytesToBytes Toy.env [1, 2, 3] (.int 2) (some 5) {} { max_app_chunks := .int 2 }
      { max_meta_size := .int 12 }).toOption.map (fun out =>
    let fp := (rewriteMetadata Toy.env (some 6) {} { data := out }).2
    [0, 1, 2, 3, 10, 11].map fun n =>
      let again := rewriteMetadata Toy.env (some 6) {} { data := Spec.replay out (fp.log.take n) }
      (again.1.toOption, (unpackBytesFromBytes Toy.env again.2.data).toOption)) =
    some [(some (), some ([1, 2, 3], some 6)), (some (), some ([1, 2, 3], some 6)), (none, none),
      (none, none), (none, none), (none, some ([1, 2, 3], some 6))] := by
  decide +kernel

end Bloscpack
