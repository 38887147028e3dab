import Verif.Lemmas.Writer
import Verif.Lemmas.PackTotal
import Verif.Lemmas.InMemory
import Verif.Examples.Toy
/-
C08 (metadata section round trip), C09 (opportunistic compression), C48 (level of uncompressed metadata).
-/
namespace Bloscpack
variable {μ : Type}

theorem FP.eq_Z (fp : FP) (h : fp.pos ≤ fp.data.length) : fp.toFile = Z (fp.data.take fp.pos) (fp.data.drop fp.pos) fp.log :=
  Z_of fp.toFile h

/-- what `_write_metadata` does, on any file -/
theorem writeMetadata_cases {E : Env μ} (L : E.Laws) (md : Option μ) (m : MetadataArgs) (fp : FP) (hp : fp.pos ≤ fp.data.length) :
    (∃ e, prepareMetadata E md m = .error e ∧ writeMetadata E md m fp = (.error e, fp)) ∨
    ∃ S sec, prepareMetadata E md m = .ok S ∧ Prepared E md m S sec ∧
      writeMetadata E md m fp = (.ok ((sec.bytes E).length, S.args),
        (wrote (fp.data.take fp.pos) (fp.data.drop fp.pos) fp.log (secWrites E sec)).ofKind fp.inMemory) := by
  cases hS : prepareMetadata E md m with
  | error e =>
    refine .inl ⟨e, rfl, ?_⟩
    unfold writeMetadata
    rw [Proc.bind_of_error (Proc.ofExcept_apply _ _ |>.trans (by rw [hS]))]
  | ok S =>
    obtain ⟨sec, hp'⟩ := prepareMetadata_ok L hS
    refine .inr ⟨S, sec, rfl, hp', ?_⟩
    have := writeMetadata_wrote L hS hp' (fp.data.take fp.pos) (fp.data.drop fp.pos) fp.log []
    rw [wrote_nil, ← FP.eq_Z fp hp, List.nil_append] at this
    exact MemSame.toFile (MemSame.writeMetadata E md m) fp this rfl

/-- C08: a metadata section written anywhere in a file occupies exactly the reported number of bytes, leaves the rest
of the file alone, and wherever these bytes are found they are read back as the same metadata, the reader stopping
exactly behind them. -/
theorem C08_section_roundtrip (E : Env μ) (L : E.Laws) (md : Option μ) (m m' : MetadataArgs) (n : Nat) (fp fp' : FP)
    (hp : fp.pos ≤ fp.data.length) (h : writeMetadata E md m fp = (.ok (n, m'), fp')) :
    ∃ S : Bytes, S.length = n ∧ fp'.data = fp.data.take fp.pos ++ S ++ fp.data.drop (fp.pos + n) ∧ fp'.pos = fp.pos + n ∧
      ∀ g : FP, g.pos ≤ g.data.length → slice g.data g.pos (g.pos + n) = S →
        ∃ hdr, readMetadata E g = (.ok (md, hdr), { g with pos := g.pos + n }) := by
  rcases writeMetadata_cases L md m fp hp with ⟨e, -, h1⟩ | ⟨S, sec, -, hs, h1⟩
  · rw [h1] at h; cases h
  · rw [h1] at h
    simp only [Prod.mk.injEq, Except.ok.injEq] at h
    obtain ⟨⟨rfl, -⟩, rfl⟩ := h
    refine ⟨sec.bytes E, rfl, ?_, ?_, ?_⟩
    · simp [wrote, secWrites_flatten hs.valid]
    · simp [wrote, secWrites_flatten hs.valid]; omega
    · intro g hg hsl
      refine ⟨sec.header, ?_⟩
      have hd : g.data.drop g.pos = sec.bytes E ++ g.data.drop (g.pos + (sec.bytes E).length) := by
        have := List.take_append_drop (sec.bytes E).length (g.data.drop g.pos)
        rw [slice, Nat.add_sub_cancel_left] at hsl
        rw [hsl, List.drop_drop] at this
        exact this.symm
      have hr := readMetadata_section L hs.valid (g.data.take g.pos) (g.data.drop (g.pos + (sec.bytes E).length)) g.log
      have hend : Z (g.data.take g.pos ++ sec.bytes E) (g.data.drop (g.pos + (sec.bytes E).length)) g.log =
          { g.toFile with pos := g.pos + (sec.bytes E).length } := by
        have : (g.data.take g.pos ++ sec.bytes E).length = g.pos + (sec.bytes E).length := by simp; omega
        simp only [Z, this]
        rw [List.append_assoc, ← hd, List.take_append_drop]
        rfl
      rw [hend, ← hd] at hr
      rw [← hs.metadata]
      obtain ⟨gd, gp, gl, k⟩ := g
      simp only at hr hg ⊢
      cases k with
      | false =>
        rw [show Z (gd.take gp) (gd.drop gp) gl = ⟨gd, gp, gl, false⟩ from (FP.eq_Z ⟨gd, gp, gl, false⟩ hg).symm] at hr
        exact hr
      | true =>
        rcases readMetadata_toMemory E (gd.take gp) (gd.drop gp) gl with hm | ⟨hm, -⟩
        · rw [hr, show Z (gd.take gp) (gd.drop gp) gl true = ⟨gd, gp, gl, true⟩ from
            congrArg FP.toMemory (FP.eq_Z ⟨gd, gp, gl, false⟩ hg).symm] at hm
          exact hm
        · rw [hr] at hm; cases hm

/-- a case with compressed metadata and preallocated space in the middle of a file -/
example : ∃ fp', writeMetadata Toy.env (some 30) { max_meta_size := .int 40 } { data := List.replicate 100 7, pos := 5 } =
    (.ok (76, { max_meta_size := .int 40 }), fp') := ⟨_, rfl⟩

/-- How serialized metadata `raw` is stored given the requested codec: uncompressed if no codec was requested or the
compressed form is larger, compressed otherwise. -/
def Spec.StoredAs (E : Env μ) (codec : String) (level : Int) (raw : Bytes) (body : Bytes) (codec' : String) : Prop :=
  (codec = "None" ∧ body = raw ∧ codec' = "None") ∨
  (codec = "zlib" ∧ ∃ c, E.zcompress raw level = .ok c ∧
    ((c.length ≤ raw.length ∧ body = c ∧ codec' = "zlib") ∨ (raw.length < c.length ∧ body = raw ∧ codec' = "None")))

/-- C09: the stored form is the smaller one (the compressed one on a tie), never larger than the serialized metadata,
and the header written in front of it says which one it is. -/
theorem C09_stored (E : Env μ) (L : E.Laws) (md : Option μ) (m m' : MetadataArgs) (n : Nat) (fp fp' : FP)
    (hp : fp.pos ≤ fp.data.length) (h : writeMetadata E md m fp = (.ok (n, m'), fp')) :
    ∃ s body hdr, E.dumps md = .ok s ∧ Spec.StoredAs E m.meta_codec m.meta_level (encodeUtf8 s) body hdr.meta_codec ∧
      body.length ≤ (encodeUtf8 s).length ∧
      MetadataHeader.decode (slice fp'.data fp.pos (fp.pos + 32)) = .ok hdr ∧
      slice fp'.data (fp.pos + 32) (fp.pos + 32 + body.length) = body ∧
      hdr.meta_comp_size = body.length ∧ hdr.meta_size = (encodeUtf8 s).length ∧
      (body.length : Int) ≤ hdr.max_meta_size ∧ m.effectiveMaxMetaSize (encodeUtf8 s).length = .ok hdr.max_meta_size := by
  rcases writeMetadata_cases L md m fp hp with ⟨e, -, h1⟩ | ⟨S, sec, hS, hs, h1⟩
  · rw [h1] at h; cases h
  · rw [h1] at h
    simp only [Prod.mk.injEq, Except.ok.injEq] at h
    obtain ⟨⟨rfl, -⟩, rfl⟩ := h
    obtain ⟨s, r1, r2, r3, r4, r5, r6⟩ := hs.raw
    have hdata : ((wrote (fp.data.take fp.pos) (fp.data.drop fp.pos) fp.log (secWrites E sec)).ofKind fp.inMemory).data =
        fp.data.take fp.pos ++ (sec.header.bytes ++ (sec.body ++ ((List.replicate sec.prealloc 0 ++ (sec.impl E).function sec.body) ++
          fp.data.drop (fp.pos + (sec.bytes E).length)))) := by
      simp [wrote, secWrites_flatten hs.valid]
      simp [Section.bytes]
    have hb := sec.header.bytes_length
    have ht : (fp.data.take fp.pos).length = fp.pos := by simp; omega
    refine ⟨s, sec.body, sec.header, r1, ?_, r3, ?_, ?_, hs.valid.size, r2, ?_, r6⟩
    · rcases r4 with ⟨q1, q2⟩ | ⟨q1, q2, q3⟩
      · rcases r5 q1 with q3 | ⟨c, q3, q4⟩
        · exact .inl ⟨q3, q2, q1⟩
        · by_cases hc : m.meta_codec = "None"
          · exact .inl ⟨hc, q2, q1⟩
          · refine .inr ⟨?_, c, q3, .inr ⟨q4, q2, q1⟩⟩
            have hz : m.meta_codec ∈ Spec.codecNames := by
              -- the requested codec was looked up successfully
              · unfold prepareMetadata at hS
                simp only [args_keys_ok, Except.ok_bind'] at hS
                rw [Except.bind_ok_iff] at hS
                obtain ⟨_, -, hS⟩ := hS
                rw [Except.bind_ok_iff] at hS
                obtain ⟨s', -, hS⟩ := hS
                rw [Except.bind_ok_iff] at hS
                obtain ⟨_, hS, -⟩ := hS
                have : m.shouldCompress = true := by simpa [MetadataArgs.shouldCompress] using hc
                rw [if_pos this, Except.bind_ok_iff] at hS
                obtain ⟨_, hS, -⟩ := hS
                unfold codecCompress at hS
                rw [if_neg hc] at hS
                split at hS
                · rename_i hz; rw [hz]; decide
                · cases hS
            simpa [Spec.codecNames, hc] using hz
      · refine .inr ⟨q2, sec.body, q3, .inl ⟨r3, rfl, q1⟩⟩
    · rw [hdata, slice_append_right _ _ _ _ (by omega), ht, Nat.sub_self, Nat.add_sub_cancel_left,
        slice_append_left _ _ _ _ (by omega), slice_all _ _ (by omega)]
      exact Section.decode_header hs.valid
    · rw [hdata, slice_append_right _ _ _ _ (by omega), slice_append_right _ _ _ _ (by omega), ht, hb,
        slice_append_left _ _ _ _ (by omega), show fp.pos + 32 - fp.pos - 32 = 0 by omega, slice_all _ _ (by omega)]
    · have h1 := hs.valid.size
      have h2 := hs.valid.fits
      omega

/-- C09: if the stored form does not fit the reserved space, `MetadataSectionTooSmall` is raised and the file is as it
was. -/
theorem C09_too_small (E : Env μ) (L : E.Laws) (md : Option μ) (m : MetadataArgs) (fp : FP) (s : List Char) (body : Bytes)
    (codec' : String) (room : Int) (hmagic : m.magic_format = [74, 83, 79, 78]) (hs : E.dumps md = .ok s)
    (hst : Spec.StoredAs E m.meta_codec m.meta_level (encodeUtf8 s) body codec')
    (hr : m.effectiveMaxMetaSize (encodeUtf8 s).length = .ok room) (hlt : room < body.length) :
    writeMetadata E md m fp = (.error .metadataSectionTooSmall, fp) := by
  have hlen : (encodeUtf8 s).length = s.length := utf8_ascii s (L.dumps_ascii _ _ hs)
  have hser : serializerLookup m.magic_format = .ok () := by rw [hmagic]; decide
  have key : prepareMetadata E md m = .error .metadataSectionTooSmall := by
    unfold prepareMetadata
    simp only [args_keys_ok, Except.ok_bind', hser, hs]
    have hmx : ∀ m2 : MetadataArgs, m2.max_meta_size = m.max_meta_size → m2.effectiveMaxMetaSize s.length = .ok room := by
      intro m2 e
      rw [hlen] at hr
      unfold MetadataArgs.effectiveMaxMetaSize at hr ⊢
      rw [e]; exact hr
    rcases hst with ⟨h1, rfl, -⟩ | ⟨h1, c, h2, h3⟩
    · have hsc : m.shouldCompress = false := by simp [MetadataArgs.shouldCompress, h1]
      simp only [hsc, Except.pure_eq, Except.ok_bind', hmx m rfl]
      simp only [hmx m rfl, Bool.false_eq_true, if_false, Except.ok_bind', if_pos (show (s.length : Int) > room by omega),
        Except.throw_eq, Except.error_bind']
    · have hsc : m.shouldCompress = true := by simp [MetadataArgs.shouldCompress, h1]
      have hcc : codecCompress E m.meta_codec (encodeUtf8 s) m.meta_level = .ok c := by simp [codecCompress, h1, h2]
      simp only [hsc, if_true, hcc, Except.ok_bind']
      rcases h3 with ⟨h3, rfl, -⟩ | ⟨h3, rfl, -⟩
      · rw [if_neg (by omega)]
        simp only [Except.pure_eq, Except.ok_bind', hmx m rfl, if_pos (show (body.length : Int) > room by omega),
          Except.throw_eq, Except.error_bind']
      · rw [if_pos (by omega)]
        simp only [Except.pure_eq, Except.ok_bind', hmx m.nullifyCodec rfl, if_pos (show (s.length : Int) > room by omega),
          Except.throw_eq, Except.error_bind']
  unfold writeMetadata
  rw [Proc.bind_of_error (Proc.ofExcept_apply _ _ |>.trans (by rw [key]))]

/-- C09: whatever goes wrong, a failing `_write_metadata` writes nothing. -/
theorem C09_failure_writes_nothing (E : Env μ) (L : E.Laws) (md : Option μ) (m : MetadataArgs) (fp fp' : FP) (e : Err)
    (hp : fp.pos ≤ fp.data.length) (h : writeMetadata E md m fp = (.error e, fp')) : fp' = fp := by
  rcases writeMetadata_cases L md m fp hp with ⟨e', -, h1⟩ | ⟨S, sec, -, hs, h1⟩
  · rw [h1] at h; cases h; rfl
  · rw [h1] at h; cases h

/-- the three ways of storing, and the failure, all happen -/
example : Spec.StoredAs Toy.env "zlib" 6 (encodeUtf8 ('[' :: List.replicate 9 '1')) [1, 91, 9, 49] "zlib" ∧
    Spec.StoredAs Toy.env "zlib" 6 (encodeUtf8 ['[']) [91] "None" ∧
    writeMetadata Toy.env (some 9) { max_meta_size := .int 3 } { data := [] } = (.error .metadataSectionTooSmall, { data := [] }) :=
  ⟨.inr ⟨rfl, _, rfl, .inl (by decide +kernel)⟩, .inr ⟨rfl, _, rfl, .inr (by decide +kernel)⟩, by rfl⟩

/-! ### C48 -/

/-- C48, the positive part: a level is recorded only in 0..9, and it is the requested one. -/
theorem C48_level_partial (E : Env μ) (L : E.Laws) (md : Option μ) (m m' : MetadataArgs) (n : Nat) (fp fp' : FP)
    (hp : fp.pos ≤ fp.data.length) (h : writeMetadata E md m fp = (.ok (n, m'), fp')) :
    ∃ hdr, MetadataHeader.decode (slice fp'.data fp.pos (fp.pos + 32)) = .ok hdr ∧ hdr.meta_level = m.meta_level ∧
      0 ≤ hdr.meta_level ∧ hdr.meta_level ≤ 9 := by
  rcases writeMetadata_cases L md m fp hp with ⟨e, -, h1⟩ | ⟨S, sec, -, hs, h1⟩
  · rw [h1] at h; cases h
  · rw [h1] at h
    simp only [Prod.mk.injEq, Except.ok.injEq] at h
    obtain ⟨⟨rfl, -⟩, rfl⟩ := h
    have hb := sec.header.bytes_length
    have ht : (fp.data.take fp.pos).length = fp.pos := by simp; omega
    refine ⟨sec.header, ?_, hs.level, hs.valid.ok.2.2.2.2.1⟩
    have hdata : ((wrote (fp.data.take fp.pos) (fp.data.drop fp.pos) fp.log (secWrites E sec)).ofKind fp.inMemory).data =
        fp.data.take fp.pos ++ (sec.header.bytes ++ (sec.body ++ ((List.replicate sec.prealloc 0 ++ (sec.impl E).function sec.body) ++
          fp.data.drop (fp.pos + (sec.bytes E).length)))) := by
      simp [wrote, secWrites_flatten hs.valid]
      simp [Section.bytes]
    rw [hdata, slice_append_right _ _ _ _ (by omega), ht, Nat.sub_self, Nat.add_sub_cancel_left,
        slice_append_left _ _ _ _ (by omega), slice_all _ _ (by omega)]
    exact Section.decode_header hs.valid

/-- C48 is violated: whenever compression is requested at a level other than 0 and does not pay, the stored header
says codec `None` with that level. -/
theorem C48_violated (E : Env μ) (L : E.Laws) (md : Option μ) (m m' : MetadataArgs) (n : Nat) (fp fp' : FP)
    (hp : fp.pos ≤ fp.data.length) (h : writeMetadata E md m fp = (.ok (n, m'), fp'))
    (s : List Char) (hs : E.dumps md = .ok s) (c : Bytes) (hc : E.zcompress (encodeUtf8 s) m.meta_level = .ok c)
    (hz : m.meta_codec = "zlib") (hlt : (encodeUtf8 s).length < c.length) (hlev : m.meta_level ≠ 0) :
    ∃ hdr, MetadataHeader.decode (slice fp'.data fp.pos (fp.pos + 32)) = .ok hdr ∧ hdr.meta_codec = "None" ∧
      hdr.meta_level ≠ 0 := by
  obtain ⟨s', body, hdr, h1, h2, -, h3, -⟩ := C09_stored E L md m m' n fp fp' hp h
  obtain ⟨hdr', h4, h5, -⟩ := C48_level_partial E L md m m' n fp fp' hp h
  rw [h3] at h4; cases h4
  rw [hs] at h1; cases h1
  refine ⟨hdr, h3, ?_, by rw [h5]; exact hlev⟩
  rcases h2 with ⟨h2, -⟩ | ⟨-, c', h6, ⟨h7, -⟩ | ⟨-, -, h7⟩⟩
  · rw [hz] at h2; exact absurd h2 (by decide)
  · rw [hc] at h6; cases h6; omega
  · exact h7

/-- and this happens with the default arguments -/
example : ∃ fp', writeMetadata Toy.env (some 0) {} { data := [] } = (.ok (46, { meta_codec := "None" }), fp') ∧
    Toy.env.dumps (some 0) = .ok ['['] ∧ Toy.env.zcompress (encodeUtf8 ['[']) 6 = .ok [1, 91] := ⟨_, rfl, rfl, by rfl⟩

end Bloscpack
