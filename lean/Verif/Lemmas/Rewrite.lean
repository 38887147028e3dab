import Verif.Lemmas.Locate
import Verif.Lemmas.ReadOnly
import Verif.Props.Metadata
import Verif.Model.Append
/-
What rewriting the metadata in place does to a conforming file.
-/
namespace Bloscpack
variable {μ : Type}

theorem Except.bind_error_iff {α β : Type} {x : Except Err α} {f : α → Except Err β} {e : Err} :
    (x >>= f) = .error e ↔ x = .error e ∨ ∃ a, x = .ok a ∧ f a = .error e := by
  cases x <;> simp [bind, Except.bind]

/-- the arguments a rewrite works with keep the size of the section -/
theorem recreateMetadata_ok {E : Env μ} {old : MetadataHeader} {x : RewriteArgs} {m : MetadataArgs}
    (h : recreateMetadata E old x = .ok m) {impl : Hash} (hi : checksumLookup E.hashlib old.meta_checksum = .ok impl) :
    m.max_meta_size = .int old.max_meta_size ∧
    ∃ impl', checksumLookup E.hashlib m.meta_checksum = .ok impl' ∧ impl'.size = impl.size := by
  unfold recreateMetadata at h
  simp only [Except.bind_ok_iff] at h
  obtain ⟨m1, h1, m2, h2, m3, h3, h4⟩ := h
  have e1 : m1.max_meta_size = .int old.max_meta_size ∧ m1.meta_checksum = old.meta_checksum := by
    split at h1
    · cases h1; exact ⟨rfl, rfl⟩
    · simp only [Except.bind_ok_iff] at h1
      obtain ⟨_, -, h1⟩ := h1
      cases h1; exact ⟨rfl, rfl⟩
  have e2 : m2.max_meta_size = .int old.max_meta_size ∧
      ∃ impl', checksumLookup E.hashlib m2.meta_checksum = .ok impl' ∧ impl'.size = impl.size := by
    split at h2
    · cases h2; exact ⟨e1.1, impl, by rw [e1.2]; exact hi, rfl⟩
    · simp only [Except.bind_ok_iff] at h2
      obtain ⟨_, -, o, ho, n, hn, h2⟩ := h2
      rw [hi] at ho; cases ho
      split at h2
      · cases h2
      · rename_i hsz
        cases h2
        exact ⟨e1.1, n, hn, by simpa using (Decidable.not_not.1 hsz).symm⟩
  have e3 : m3.max_meta_size = m2.max_meta_size ∧ m3.meta_checksum = m2.meta_checksum := by
    split at h3
    · cases h3; exact ⟨rfl, rfl⟩
    · simp only [Except.bind_ok_iff] at h3
      obtain ⟨_, -, h3⟩ := h3
      cases h3; exact ⟨rfl, rfl⟩
  have e4 : m.max_meta_size = m3.max_meta_size ∧ m.meta_checksum = m3.meta_checksum := by
    split at h4
    · cases h4; exact ⟨rfl, rfl⟩
    · simp only [Except.bind_ok_iff] at h4
      obtain ⟨_, -, h4⟩ := h4
      cases h4; exact ⟨rfl, rfl⟩
  rw [e4.1, e4.2, e3.1, e3.2]
  exact e2

section
variable {E : Env μ} {F : File μ}

/-- replacing the metadata section by one of the same size -/
theorem File.Conforming.replaceSec (hc : F.Conforming E) {s s' : Section μ} (hs : F.sec = some s) (hv : s'.Valid E)
    (hlen : (s'.bytes E).length = (s.bytes E).length) : ({ F with sec := some s' } : File μ).Conforming E := by
  have hfront : (File.front E { F with sec := some s' }).length = (F.front E).length := by
    unfold File.front File.secBytes
    simp only [hs, List.length_append, hlen]
  exact {
    ok := hc.ok, version := hc.version
    meta_flag := by rw [hc.meta_flag, hs]; rfl
    sec_ok := by rintro _ ⟨⟩; exact hv
    offsets_len := hc.offsets_len, offsets_small := hc.offsets_small, nchunks_le := hc.nchunks_le, chunks_ok := hc.chunks_ok, nchunks := hc.nchunks
    lengths := hc.lengths, sizes := hc.sizes
    table := fun ho => by rw [hfront]; exact hc.table ho
    reach := fun ho => by rw [hfront]; exact hc.reach ho }

/-- what a metadata rewrite does to a conforming file -/
theorem rewrite_run (L : E.Laws) (hc : F.Conforming E) (md : Option μ) (x : RewriteArgs) (l : List (Nat × Bytes))
    (r : Except Err Unit) (fp : FP) (hrun : rewriteMetadata E md x { data := F.bytes E, log := l } = (r, fp)) :
    (∃ e, r = .error e ∧ fp.data = F.bytes E ∧ fp.log = l ∧
      (F.sec = none → e = .noMetadataFound) ∧
      (∀ s, F.sec = some s → E.metaEq s.metadata md = true → e = .noChangeInMetadata) ∧
      (∀ s, F.sec = some s → E.metaEq s.metadata md = false → recreateMetadata E s.header x = .error e ∨
        ∃ m, recreateMetadata E s.header x = .ok m ∧ prepareMetadata E md m = .error e)) ∨
    ∃ s s', F.sec = some s ∧ s'.Valid E ∧ s'.metadata = md ∧ (s'.bytes E).length = (s.bytes E).length ∧
      E.metaEq s.metadata md = false ∧
      r = .ok () ∧ fp.data = ({ F with sec := some s' } : File μ).bytes E ∧ fp.log = l ++ seqLog 32 (secWrites E s') ∧
      s'.header.max_meta_size = s.header.max_meta_size ∧ (s'.impl E).size = (s.impl E).size ∧
      ∃ m S, recreateMetadata E s.header x = .ok m ∧ prepareMetadata E md m = .ok S ∧ Prepared E md m S s' := by
  unfold rewriteMetadata at hrun
  have hz : ({ data := F.bytes E, log := l } : FP) = Z [] (F.header.bytes ++ ((F.secBytes E ++ F.offsets) ++ (F.body E ++ F.junk))) l := by
    show ({ data := F.bytes E, log := l } : FP) = ({ data := _, pos := 0, log := l } : FP)
    simp [File.bytes, File.front]
  rw [hz] at hrun
  cases hs : F.sec with
  | none =>
    have hseek : seekToMetadata (Z [] (F.header.bytes ++ ((F.secBytes E ++ F.offsets) ++ (F.body E ++ F.junk))) l) =
        (.error .noMetadataFound, Z F.header.bytes ((F.secBytes E ++ F.offsets) ++ (F.body E ++ F.junk)) l) := by
      unfold seekToMetadata
      rw [Proc.bind_of_ok (readHeader_ok hc.ok hc.version _ _ _),
        Proc.bind_of_error (Proc.raiseIf_pos (by rw [hc.meta_flag, hs]; rfl) _ _), List.nil_append]
    rw [Proc.bind_of_error hseek] at hrun
    cases hrun
    refine .inl ⟨_, rfl, ?_, rfl, fun _ => rfl, nofun, nofun⟩
    simp [File.bytes, File.front]
  | some s =>
    have hv := hc.sec_ok s hs
    have hsb : F.secBytes E = s.bytes E := by simp [File.secBytes, hs]
    have hseek : seekToMetadata (Z [] (F.header.bytes ++ ((F.secBytes E ++ F.offsets) ++ (F.body E ++ F.junk))) l) =
        (.ok 32, Z F.header.bytes ((F.secBytes E ++ F.offsets) ++ (F.body E ++ F.junk)) l) := by
      unfold seekToMetadata
      rw [Proc.bind_of_ok (readHeader_ok hc.ok hc.version _ _ _),
        Proc.bind_of_ok (Proc.raiseIf_neg (by rw [hc.meta_flag, hs]; simp) _ _), List.nil_append]
      simp [fpTell_eq, BloscpackHeader.bytes_length]
    rw [Proc.bind_of_ok hseek] at hrun
    have hrest : (F.secBytes E ++ F.offsets) ++ (F.body E ++ F.junk) = s.bytes E ++ (F.offsets ++ (F.body E ++ F.junk)) := by
      rw [hsb]; simp
    rw [hrest] at hrun
    have hbytes : F.bytes E = F.header.bytes ++ (s.bytes E ++ (F.offsets ++ (F.body E ++ F.junk))) := by
      simp [File.bytes, File.front, hsb]
    have htell : fpTell (Z F.header.bytes (s.bytes E ++ (F.offsets ++ (F.body E ++ F.junk))) l) =
        (.ok 32, Z F.header.bytes (s.bytes E ++ (F.offsets ++ (F.body E ++ F.junk))) l) := by
      simp [fpTell_eq, BloscpackHeader.bytes_length]
    unfold rewriteMetadataFp at hrun
    rw [Proc.bind_of_ok htell, Proc.bind_of_ok (readMetadata_section L hv _ _ _)] at hrun
    simp only at hrun
    cases heq : E.metaEq s.metadata md with
    | true =>
      rw [Proc.bind_of_error (Proc.raiseIf_pos heq _ _)] at hrun
      cases hrun
      refine .inl ⟨_, rfl, by rw [hbytes]; simp, rfl, nofun, fun _ _ _ => rfl, ?_⟩
      rintro _ ⟨⟩ h; rw [heq] at h; cases h
    | false =>
      rw [Proc.bind_of_ok (Proc.raiseIf_neg (by simp [heq]) _ _)] at hrun
      have hno : ∀ (s2 : Section μ), some s = some s2 → E.metaEq s2.metadata md = true → False := by
        rintro _ ⟨⟩ h; rw [heq] at h; cases h
      cases hm : recreateMetadata E s.header x with
      | error e =>
        rw [hm, Proc.bind_of_error (Proc.ofExcept_apply _ _)] at hrun
        cases hrun
        refine .inl ⟨_, rfl, by rw [hbytes]; simp, rfl, nofun, fun s2 h1 h2 => (hno s2 h1 h2).elim, ?_⟩
        rintro _ ⟨⟩ -; exact .inl hm
      | ok m =>
        obtain ⟨m1, impl', m2, m3⟩ := recreateMetadata_ok hm (Section.lookup hv).1
        rw [hm, Proc.bind_of_ok (Proc.ofExcept_apply _ _),
          Proc.bind_of_ok (fpSeek_Z _ _ F.header.bytes (s.bytes E ++ (F.offsets ++ (F.body E ++ F.junk))) l _ (by simp)
            (by rw [BloscpackHeader.bytes_length]))] at hrun
        cases hS : prepareMetadata E md m with
        | error e =>
          have hw : writeMetadata E md m (Z F.header.bytes (s.bytes E ++ (F.offsets ++ (F.body E ++ F.junk))) l) =
              (.error e, Z F.header.bytes (s.bytes E ++ (F.offsets ++ (F.body E ++ F.junk))) l) := by
            unfold writeMetadata
            rw [Proc.bind_of_error (Proc.ofExcept_apply _ _ |>.trans (by rw [hS]))]
          rw [Proc.bind_of_error hw] at hrun
          cases hrun
          refine .inl ⟨_, rfl, by rw [hbytes]; simp, rfl, nofun, fun s2 h1 h2 => (hno s2 h1 h2).elim, ?_⟩
          rintro _ ⟨⟩ -; exact .inr ⟨m, hm, hS⟩
        | ok S =>
          right
          obtain ⟨s', hp⟩ := prepareMetadata_ok L hS
          rw [← wrote_nil F.header.bytes, Proc.bind_of_ok (writeMetadata_wrote L hS hp _ _ _ _)] at hrun
          have hr : (Except.ok (), wrote F.header.bytes (s.bytes E ++ (F.offsets ++ (F.body E ++ F.junk))) l ([] ++ secWrites E s')) = (r, fp) := hrun
          simp only [Prod.mk.injEq] at hr
          obtain ⟨rfl, rfl⟩ := hr
          have hmax : s'.header.max_meta_size = s.header.max_meta_size := by
            obtain ⟨_, -, -, -, -, -, h⟩ := hp.raw
            simp only [MetadataArgs.effectiveMaxMetaSize, m1] at h
            simp only [Except.ok.injEq] at h; exact h.symm
          have hsize : (s'.impl E).size = (s.impl E).size := by
            have h1 := (Section.lookup hp.valid).1
            rw [hp.checksum, m2] at h1
            cases h1; exact m3
          have hlen : (s'.bytes E).length = (s.bytes E).length := by
            have h1 := Section.bytes_length L hp.valid
            have h2 := Section.bytes_length L hv
            rw [hmax, hsize] at h1
            omega
          refine ⟨s, s', rfl, hp.valid, hp.metadata, hlen, heq, rfl, ?_, ?_, hmax, hsize, m, S, hm, hS, hp⟩
          · have : (s.bytes E ++ (F.offsets ++ (F.body E ++ F.junk))).drop (s'.bytes E).length = F.offsets ++ (F.body E ++ F.junk) := by
              rw [hlen]; exact List.drop_left
            simp only [wrote, List.nil_append, secWrites_flatten hp.valid, this]
            simp [File.bytes, File.front, File.secBytes, File.body, File.impl]
          · simp [wrote, BloscpackHeader.bytes_length]

end

/-- reading up to a failing write: nothing has been written -/
theorem writeMetadata_error {E : Env μ} {md : Option μ} {m : MetadataArgs} {fp fp' : FP} {e : Err}
    (h : writeMetadata E md m fp = (.error e, fp')) : fp' = fp := by
  unfold writeMetadata at h
  cases hS : prepareMetadata E md m with
  | error e' =>
    rw [Proc.bind_of_error (Proc.ofExcept_apply _ _ |>.trans (by rw [hS]))] at h
    cases h; rfl
  | ok S =>
    exfalso
    rw [Proc.bind_of_ok (Proc.ofExcept_apply _ _ |>.trans (by rw [hS]))] at h
    have hz : ∀ n fp, ∃ fp', writeZeros n fp = (.ok (), fp') := by
      intro n
      induction n with
      | zero => intro fp; exact ⟨fp, rfl⟩
      | succ n ih => intro fp; exact ih _
    have hw : ∀ b fp, fpWrite b fp = (.ok (), fp.write b) := fun _ _ => rfl
    rw [Proc.bind_of_ok (hw _ _), Proc.bind_of_ok (hw _ _)] at h
    obtain ⟨fp2, h2⟩ := hz S.prealloc ((fp.write S.header).write S.body)
    rw [Proc.bind_of_ok h2] at h
    split at h
    · rw [Proc.bind_of_ok (hw _ _)] at h; cases h
    · cases h

end Bloscpack
