import Verif.Lemmas.Rewrite
import Verif.Lemmas.PackTotal
import Verif.Props.Append
/-
C10, C11: rewriting the metadata in place.
-/
namespace Bloscpack
variable {μ : Type}

/-! ### C10 -/

/-- C10: after a successful metadata rewrite the file unpacks to the same data and the new metadata. No byte outside the
metadata section changed, and the section occupies the same bytes. -/
theorem C10_rewrite (E : Env μ) (L : E.Laws) (F : File μ) (hc : F.Conforming E) (md : Option μ) (x : RewriteArgs) (fp : FP)
    (h : rewriteMetadata E md x { data := F.bytes E } = (.ok (), fp)) :
    unpackBytesFromBytes E fp.data = .ok (F.data, md) ∧
    fp.data.length = (F.bytes E).length ∧ fp.data.take 32 = (F.bytes E).take 32 ∧
    fp.data.drop (32 + (F.secBytes E).length) = (F.bytes E).drop (32 + (F.secBytes E).length) ∧
    ∃ F' : File μ, fp.data = F'.bytes E ∧ F'.Conforming E ∧ F'.data = F.data ∧ F'.metadata = md ∧ F'.header = F.header ∧
      (F'.secBytes E).length = (F.secBytes E).length ∧ F'.sec.isSome ∧ F'.chunks = F.chunks ∧ F'.offsets = F.offsets ∧
      F'.junk = F.junk := by
  rcases rewrite_run L hc md x [] _ _ h with ⟨e, h1, -⟩ | ⟨s, s', h1, h2, h3, h4, -, -, h5, -⟩
  · cases h1
  · have hF := hc.replaceSec h1 h2 h4
    have hs : F.secBytes E = s.bytes E := by simp [File.secBytes, h1]
    have hs' : File.secBytes E { F with sec := some s' } = s'.bytes E := rfl
    have e1 : F.bytes E = F.header.bytes ++ (s.bytes E ++ (F.offsets ++ (F.body E ++ F.junk))) := by
      simp [File.bytes, File.front, hs]
    have e2 : File.bytes E { F with sec := some s' } = F.header.bytes ++ (s'.bytes E ++ (F.offsets ++ (F.body E ++ F.junk))) := by
      simp [File.bytes, File.front, hs', File.body, File.impl]
    have hl := F.header.bytes_length
    refine ⟨?_, ?_, ?_, ?_, _, h5, hF, rfl, h3, rfl, ?_, rfl, rfl, rfl, rfl⟩
    · rw [h5, unpack_conforming L hF.toValid]
      show Except.ok (F.data, s'.metadata) = _
      rw [h3]
    · rw [h5, e1, e2]; simp [h4]
    · rw [h5, e1, e2, List.take_left' hl, List.take_left' hl]
    · rw [h5, e1, e2, hs, ← List.append_assoc F.header.bytes, ← List.append_assoc F.header.bytes, List.drop_left' (by simp [hl, h4]), List.drop_left' (by simp [hl])]
    · rw [hs', hs, h4]

/-- C10: with the default arguments a rewrite succeeds for every metadata that is different and whose serialized form
fits the section. -/
theorem C10_total (E : Env μ) (L : E.Laws) (F : File μ) (hc : F.Conforming E) (s : Section μ) (hs : F.sec = some s) (m : μ)
    (hne : E.metaEq s.metadata (some m) = false) (str : List Char) (hd : E.dumps (some m) = .ok str)
    (hfit : (str.length : Int) ≤ s.header.max_meta_size) :
    ∃ fp, rewriteMetadata E (some m) {} { data := F.bytes E } = (.ok (), fp) := by
  generalize hrun : rewriteMetadata E (some m) {} { data := F.bytes E } = res
  obtain ⟨r, fp⟩ := res
  rcases rewrite_run L hc (some m) {} [] r fp hrun with ⟨e, rfl, -, -, -, -, h1⟩ | ⟨_, _, -, -, -, -, -, rfl, -⟩
  · exfalso
    have hv := hc.sec_ok s hs
    have hre : recreateMetadata E s.header {} = .ok { magic_format := s.header.magic_format, meta_checksum := s.header.meta_checksum, meta_codec := "zlib", meta_level := 6, max_meta_size := .int s.header.max_meta_size } := by
      have h1 : checkValidCodec "zlib" = .ok () := by decide
      have h2 : checkRange (.int 6) 0 MAX_CLEVEL = .ok () := by decide
      simp [recreateMetadata, h1, h2]
    rcases h1 s hs hne with h1 | ⟨m', h1, h2⟩
    · rw [hre] at h1; cases h1
    · rw [hre] at h1
      cases h1
      have hg : Spec.GoodMetadata E (some m) { magic_format := s.header.magic_format, meta_checksum := s.header.meta_checksum, meta_codec := "zlib", meta_level := 6, max_meta_size := .int s.header.max_meta_size } :=
        .inr ⟨hv.magic, hv.ok.2.2.1, (show "zlib" ∈ Spec.codecNames by decide), (show (0 : Int) ≤ 6 by decide),
          (show (6 : Int) ≤ 9 by decide), str, s.header.max_meta_size, hd, .inl rfl, hfit, hv.ok.2.2.2.2.2.2.1.2⟩
      obtain ⟨S, h3⟩ := prepareMetadata_total L rfl hg
      rw [h2] at h3; cases h3
  · exact ⟨fp, rfl⟩

/-- a rewrite, and an append after it -/
example : (packBytesToBytes Toy.env [1, 2, 3] (.int 2) (some 5) {} { max_app_chunks := .int 1 }
      { max_meta_size := .int 12 }).toOption.map (fun out =>
    let r := rewriteMetadata Toy.env (some 7) {} { data := out }
    let r' := appendFp Toy.env { data := [4] } 1 {} { data := r.2.data }
    [(unpackBytesFromBytes Toy.env r.2.data).toOption, (unpackBytesFromBytes Toy.env r'.2.data).toOption]) =
      some [some ([1, 2, 3], some 7), some ([1, 2, 3, 4], some 7)] := by
  decide +kernel

/-! ### C11 -/

/-- C11: whatever the file contains, if the rewrite raises then the file is byte for byte what it was. -/
theorem C11_failed_rewrite_untouched (E : Env μ) (d : Bytes) (md : Option μ) (x : RewriteArgs) (e : Err) (fp : FP)
    (h : rewriteMetadata E md x { data := d } = (.error e, fp)) : fp.data = d ∧ fp.log = [] := by
  have hseek : ReadOnly seekToMetadata := by
    unfold seekToMetadata
    exact .bind .readBloscpackHeader fun _ => .bind (.raiseIf _ _) fun _ => .tell
  have : FailsClean (rewriteMetadata E md x) := by
    unfold rewriteMetadata rewriteMetadataFp
    refine .bind hseek fun _ => .bind .tell fun _ => .bind (.readMetadata E) fun _ => .bind (.raiseIf _ _) fun _ =>
      .bind (.ofExcept _) fun _ => .bind (.seek _) fun _ => ?_
    intro fp e fp' h
    cases hw : writeMetadata E md ‹_› fp with
    | mk r s =>
      cases r with
      | error e' =>
        rw [Proc.bind_of_error hw] at h
        cases h
        rw [writeMetadata_error hw]; exact ⟨rfl, rfl⟩
      | ok a => rw [Proc.bind_of_ok hw] at h; cases h
  exact this _ _ _ h

theorem recreateMetadata_error {E : Env μ} {old : MetadataHeader} {x : RewriteArgs} {e : Err}
    (h : recreateMetadata E old x = .error e) (hold : old.meta_checksum ∈ Spec.checksumNames) :
    (∃ f, x.magic_format = some f ∧ f ≠ [74, 83, 79, 78] ∧ e = .noSuchSerializer) ∨
    (∃ c, x.checksum = some c ∧ c ∉ Spec.checksumNames ∧ e = .noSuchChecksum) ∨
    (∃ c, x.checksum = some c ∧ c ∈ Spec.checksumNames ∧ Spec.digestSize c ≠ Spec.digestSize old.meta_checksum ∧
      e = .checksumLengthMismatch) ∨
    (∃ c, x.codec = some c ∧ c ∉ Spec.codecNames ∧ e = .noSuchCodec) ∨
    (∃ l, x.level = some l ∧ ¬ (0 ≤ l ∧ l ≤ 9) ∧ e = .valueError) := by
  have hmax : (MAX_CLEVEL : Int) = 9 := by decide
  have hcod : codecsAvail = Spec.codecNames := by decide
  have hchk : checksumsAvail = Spec.checksumNames := by decide
  obtain ⟨io, ho1, ho2, ho3⟩ := checksumLookup_of (hl := E.hashlib) hold
  unfold recreateMetadata at h
  rcases Except.bind_error_iff.1 h with h | ⟨m1, -, h⟩
  · split at h
    · cases h
    · rename_i f hf
      rcases Except.bind_error_iff.1 h with h | ⟨_, -, h⟩
      · unfold checkValidSerializer at h
        split at h
        · cases h
        · rename_i hn; cases h
          exact .inl ⟨f, hf, by simpa [serializersAvail] using hn, rfl⟩
      · cases h
  rcases Except.bind_error_iff.1 h with h | ⟨m2, -, h⟩
  · split at h
    · cases h
    · rename_i c hf
      right
      rcases Except.bind_error_iff.1 h with h | ⟨_, hcv, h⟩
      · unfold checkValidChecksum at h
        split at h
        · cases h
        · rename_i hn; cases h
          exact .inl ⟨c, hf, by rwa [hchk] at hn, rfl⟩
      · have hc : c ∈ Spec.checksumNames := by
          unfold checkValidChecksum at hcv
          split at hcv
          · rename_i h1; rwa [hchk] at h1
          · cases hcv
        obtain ⟨ic, hc1, hc2, hc3⟩ := checksumLookup_of (hl := E.hashlib) hc
        simp only [ho1, hc1, Except.ok_bind'] at h
        split at h
        · rename_i hne; cases h
          exact .inr (.inl ⟨c, hf, hc, by rw [← hc3, ← ho3]; exact fun h => hne h.symm, rfl⟩)
        · cases h
  rcases Except.bind_error_iff.1 h with h | ⟨m3, -, h⟩
  · split at h
    · cases h
    · rename_i c hf
      rcases Except.bind_error_iff.1 h with h | ⟨_, -, h⟩
      · unfold checkValidCodec at h
        split at h
        · cases h
        · rename_i hn; cases h
          exact .inr (.inr (.inr (.inl ⟨c, hf, by rwa [hcod] at hn, rfl⟩)))
      · cases h
  split at h
  · cases h
  · rename_i l hf
    rcases Except.bind_error_iff.1 h with h | ⟨_, -, h⟩
    · simp only [checkRange, hmax] at h
      split at h
      · cases h
      · rename_i hn; cases h
        exact .inr (.inr (.inr (.inr ⟨l, hf, hn, rfl⟩)))
    · cases h

/-- C11: the reasons. A file without metadata section, and metadata that is already there, are refused. Otherwise the
overrides are checked in this order: serializer, checksum, its size, codec, level. Finally the stored form must fit. -/
theorem C11_reasons (E : Env μ) (L : E.Laws) (F : File μ) (hc : F.Conforming E) (md : Option μ) (x : RewriteArgs) (e : Err) (fp : FP)
    (h : rewriteMetadata E md x { data := F.bytes E } = (.error e, fp)) :
    (F.sec = none ∧ e = .noMetadataFound) ∨
    ∃ s, F.sec = some s ∧
      ((E.metaEq s.metadata md = true ∧ e = .noChangeInMetadata) ∨
       (E.metaEq s.metadata md = false ∧
        ((∃ f, x.magic_format = some f ∧ f ≠ [74, 83, 79, 78] ∧ e = .noSuchSerializer) ∨
         (∃ c, x.checksum = some c ∧ c ∉ Spec.checksumNames ∧ e = .noSuchChecksum) ∨
         (∃ c, x.checksum = some c ∧ c ∈ Spec.checksumNames ∧ Spec.digestSize c ≠ Spec.digestSize s.header.meta_checksum ∧
            e = .checksumLengthMismatch) ∨
         (∃ c, x.codec = some c ∧ c ∉ Spec.codecNames ∧ e = .noSuchCodec) ∨
         (∃ l, x.level = some l ∧ ¬ (0 ≤ l ∧ l ≤ 9) ∧ e = .valueError) ∨
         ∃ m, recreateMetadata E s.header x = .ok m ∧ writeMetadata E md m { data := [] } = (.error e, { data := [] })))) := by
  rcases rewrite_run L hc md x [] _ _ h with ⟨e', h0, -, -, h1, h2, h3⟩ | ⟨_, _, -, -, -, -, -, h0, -⟩
  · cases h0
    cases hs : F.sec with
    | none => exact .inl ⟨rfl, h1 hs⟩
    | some s =>
      refine .inr ⟨s, rfl, ?_⟩
      cases hq : E.metaEq s.metadata md with
      | true => exact .inl ⟨rfl, h2 s hs hq⟩
      | false =>
        refine .inr ⟨rfl, ?_⟩
        rcases h3 s hs hq with h4 | ⟨m, h4, h5⟩
        · rcases recreateMetadata_error h4 (hc.sec_ok s hs).ok.2.2.1 with h | h | h | h | h
          · exact .inl h
          · exact .inr (.inl h)
          · exact .inr (.inr (.inl h))
          · exact .inr (.inr (.inr (.inl h)))
          · exact .inr (.inr (.inr (.inr (.inl h))))
        · refine .inr (.inr (.inr (.inr (.inr ⟨m, h4, ?_⟩))))
          unfold writeMetadata
          rw [Proc.bind_of_error (Proc.ofExcept_apply _ _ |>.trans (by rw [h5]))]
  · cases h0

example : (packBytesToBytes Toy.env [1, 2, 3] (.int 2) (some 5) {} { max_app_chunks := .int 1 }
      { max_meta_size := .int 12 }).toOption.map (fun out =>
    [(rewriteMetadata Toy.env (some 5) {} { data := out }).1, (rewriteMetadata Toy.env (some 7) { codec := some "lzma" } { data := out }).1,
     (rewriteMetadata Toy.env (some 7) { checksum := some "sha512" } { data := out }).1,
     (rewriteMetadata Toy.env (some 7) { level := some 10 } { data := out }).1,
     (rewriteMetadata Toy.env (some 70) { codec := some "None" } { data := out }).1]) =
      some [.error .noChangeInMetadata, .error .noSuchCodec, .error .checksumLengthMismatch, .error .valueError,
        .error .metadataSectionTooSmall] := by
  decide +kernel

end Bloscpack
