import Verif.Lemmas.PackFile
import Verif.Model.Streams
/-
Packing and unpacking at any place of a file object.
-/
namespace Bloscpack
variable {μ : Type}

/-- writing within or at the end of a file -/
theorem overlay_of_le {d : Bytes} {k : Nat} (h : k ≤ d.length) (w : Bytes) :
    overlay d k w = d.take k ++ (w ++ d.drop (k + w.length)) := by
  unfold overlay
  split
  · rename_i hw
    rw [hw]
    simp
  · have : k - d.length = 0 := by omega
    rw [this]
    simp

/-- `finalize`, wherever it seeks to -/
theorem finalize_overlay {s : FPSink} (ho : s.header.offsets = true) {raw : Bytes} (hr : encodeOffsets s.offset_storage = .ok raw) :
    FPSink.finalize s = (.ok (), { s with fp := { s.fp with
      data := overlay s.fp.data (32 + s.meta_total) raw, pos := 32 + s.meta_total + raw.length,
      log := s.fp.log ++ [(32 + s.meta_total, raw)] } }) := by
  unfold FPSink.finalize
  rw [Proc.bind_of_ok (Proc.get_apply s), if_pos ho]
  have h1 : fpSeek (BLOSCPACK_HEADER_LENGTH + s.meta_total) s.fp = (.ok (), { s.fp with pos := 32 + s.meta_total }) := by
    have h32 : (BLOSCPACK_HEADER_LENGTH : Int) = 32 := rfl
    have : ¬ ((BLOSCPACK_HEADER_LENGTH : Int) + s.meta_total < 0) := by omega
    simp only [fpSeek_eq]; unfold FP.seek
    rw [if_neg this]
    have h2 : ((BLOSCPACK_HEADER_LENGTH : Int) + s.meta_total).toNat = 32 + s.meta_total := by omega
    rw [h2]
  rw [Proc.bind_of_ok (onFP_of h1)]
  refine (onFP_of (s := { s with fp := { s.fp with pos := 32 + s.meta_total } }) (r := .ok ()) ?_)
  unfold writeOffsets
  rw [Proc.bind_of_ok (Proc.ofExcept_apply _ _ |>.trans (by rw [hr])), fpWrite_eq]
  rfl

theorem base_long (E : Env μ) (h : BloscpackHeader) (sec : Option (Section μ)) (chs : List (Bytes × Bytes)) (A : Bytes) :
    32 + (optSecBytes E sec).length ≤ (A ++ (baseFile h sec chs).bytes E).length := by
  have hfr : (baseFile h sec chs).front E = h.bytes ++ optSecBytes E sec ++ placeholder h := by
    unfold File.front baseFile File.secBytes optSecBytes
    cases sec <;> simp
  unfold File.bytes
  rw [hfr]
  simp only [List.length_append, BloscpackHeader.bytes_length]
  omega

/-- `pack` to a sink in any state, at the end of a file that holds `A`, when nothing goes wrong before the offsets are written -/
theorem pack_with {E : Env μ} (L : E.Laws) (src : PlainSource) (n c l : Int) (md : Option μ) (a : BloscArgs) (b : BloscpackArgs)
    (m : MetadataArgs) (hn : 1 ≤ n) (items : List Bytes) (hsrc : src c l n = ⟨items, none⟩) (hlen : items.length = n.toNat)
    (A : Bytes) (lg : List (Nat × Bytes)) {s0 : FPSink} (hs0 : s0.fp = Z A [] lg) {h : BloscpackHeader} (hph : packHeader n c l md a b = .ok h) {sec : Option (Section μ)}
    {m' : MetadataArgs} (hs : SecFor E md m sec m') (hb : offsetsLen h < 2 ^ 63) {chs : List (Bytes × Bytes)}
    (hi : chs.map (·.2) = items) (hc : ∀ p ∈ chs, E.compress p.2 a = .ok p.1) :
    (h.offsets = false → ∃ s lg', pack E src (compressedFPSink E) n c l md a b m s0 = (.ok m', s) ∧
      s.fp = Z (A ++ (baseFile h sec chs).bytes E) [] lg' ∧ s.meta_total = s0.meta_total + (optSecBytes E sec).length) ∧
    (h.offsets = true → ∀ raw, encodeOffsets (Spec.positions ((baseFile h sec chs).impl E).function
        (A.length + ((baseFile h sec chs).front E).length) (chs.map (·.1))) = .ok raw →
      ∃ s, pack E src (compressedFPSink E) n c l md a b m s0 = (.ok m', s) ∧
        s.fp.data = overlay (A ++ (baseFile h sec chs).bytes E) (32 + (s0.meta_total + (optSecBytes E sec).length)) raw ∧
        s.fp.pos = 32 + (s0.meta_total + (optSecBytes E sec).length) + raw.length ∧ s.meta_total = s0.meta_total + (optSecBytes E sec).length) := by
  unfold pack
  obtain ⟨hok, -, -, -, -, -, -, -, hnch, -⟩ := packHeader_ok hph
  obtain ⟨impl, himpl, -, -⟩ := checksumLookup_of (hl := E.hashlib) hok.2.1
  have himpl' : h.checksumImpl E = .ok impl := himpl
  have hii := (checksumLookup_mem himpl).1
  have hbi : ∀ (sec : Option (Section μ)) chs, (baseFile h sec chs).impl E = impl := by
    intro sec chs; simp [File.impl, baseFile, himpl']
  rw [hph, Proc.bind_of_ok (Proc.ofExcept_apply _ _)]
  have h1 : (compressedFPSink E).configure a h s0 = (.ok (), (mkSink h impl (wrote A [] lg []) s0.meta_total s0.offset_storage)) := by
    show (Proc.ofExcept (h.checksumImpl E) >>= _) _ = _
    rw [Proc.bind_of_ok (Proc.ofExcept_apply _ _ |>.trans (by rw [himpl'])), wrote_nil, ← hs0]
    rfl
  rw [Proc.bind_of_ok h1]
  have h2 : (compressedFPSink E).writeBloscpackHeader (mkSink h impl (wrote A [] lg []) s0.meta_total s0.offset_storage) =
      (.ok (), (mkSink h impl (wrote A [] lg [h.bytes]) s0.meta_total s0.offset_storage)) := by
    show (Proc.get >>= _) _ = _
    rw [Proc.bind_of_ok (Proc.get_apply _),
      Proc.bind_of_ok (Proc.ofExcept_apply _ _ |>.trans (by rw [mkSink_header, BloscpackHeader.encode_ok hok]))]
    exact onFP_of (s := mkSink h impl (wrote A [] lg []) s0.meta_total s0.offset_storage) (fpWrite_wrote _ _ _ _ _)
  rw [Proc.bind_of_ok h2]
  have h3 : packMetadata (compressedFPSink E) md m (mkSink h impl (wrote A [] lg [h.bytes]) s0.meta_total s0.offset_storage) =
        (.ok m', (mkSink h impl (wrote A [] lg ([h.bytes] ++ optSecWrites E sec)) (s0.meta_total + (optSecBytes E sec).length) s0.offset_storage)) := by
    rcases hs with ⟨rfl, rfl, rfl⟩ | ⟨S, sec', hsm, hp, hsec, rfl, rfl⟩
    · rfl
    · obtain ⟨x, rfl⟩ : ∃ x, md = some x := by
        cases md with
        | none => simp at hsm
        | some x => exact ⟨x, rfl⟩
      refine (writeMeta_sink L hp hsec rfl).trans ?_
      simp [optSecWrites, optSecBytes, mkSink]
  rw [Proc.bind_of_ok h3]
  have hn0 : 0 ≤ h.nchunks := by omega
  have h4 := initOffsets_wrote (s := (mkSink h impl (wrote A [] lg ([h.bytes] ++ optSecWrites E sec)) (s0.meta_total + (optSecBytes E sec).length) s0.offset_storage)) rfl hn0 hb
  have h4' : (compressedFPSink E).initOffsets (mkSink h impl (wrote A [] lg ([h.bytes] ++ optSecWrites E sec)) (s0.meta_total + (optSecBytes E sec).length) s0.offset_storage) =
      (.ok (), (mkSink h impl (wrote A [] lg (frontWrites E h sec)) (s0.meta_total + (optSecBytes E sec).length) (if h.offsets then List.replicate h.nchunks.toNat (-1) else s0.offset_storage))) := by
    refine h4.trans ?_
    simp [frontWrites, mkSink]
    exact ⟨rfl, rfl⟩
  rw [Proc.bind_of_ok h4']
  simp only [hsrc]
  have hv := hs.valid
  have h5 := packLoop_wrote (E := E) a items (mkSink h impl (wrote A [] lg (frontWrites E h sec)) (s0.meta_total + (optSecBytes E sec).length) (if h.offsets then List.replicate h.nchunks.toNat (-1) else s0.offset_storage)) hii rfl []
      (if h.offsets then List.replicate h.nchunks.toNat (-1) else s0.offset_storage) (by simp)
      (by intro ho; have ho : h.offsets = true := ho; simp [ho, hlen, hnch])
  simp only [List.length_nil] at h5
  have hch : ∀ (ds : List Bytes) (c1 c2 : List (Bytes × Bytes)), c1.map (·.2) = ds → c2.map (·.2) = ds →
      (∀ p ∈ c1, E.compress p.2 a = .ok p.1) → (∀ p ∈ c2, E.compress p.2 a = .ok p.1) → c1 = c2 := by
    intro ds
    induction ds with
    | nil => intro c1 c2 e1 e2 _ _; rw [List.map_eq_nil_iff.1 e1, List.map_eq_nil_iff.1 e2]
    | cons d ds ih =>
      intro c1 c2 e1 e2 k1 k2
      obtain ⟨p, ps, rfl, hp, hps⟩ := List.map_eq_cons_iff.1 e1
      obtain ⟨q, qs, rfl, hq, hqs⟩ := List.map_eq_cons_iff.1 e2
      rw [ih ps qs hps hqs (fun p hp => k1 p (List.mem_cons_of_mem _ hp)) (fun p hp => k2 p (List.mem_cons_of_mem _ hp))]
      have a1 := k1 p List.mem_cons_self
      have a2 := k2 q List.mem_cons_self
      rw [hp] at a1; rw [hq] at a2
      rw [a1] at a2
      injection a2 with a2
      congr 1
      exact Prod.ext a2 (hp.trans hq.symm)
  rcases h5 with ⟨chs', e1, e2, h5⟩ | ⟨chs', d, rest, e, e1, -, e3, -⟩
  rotate_left
  · exfalso
    have hd : d ∈ chs.map (·.2) := by rw [hi, ← e1]; simp
    obtain ⟨p, hp, rfl⟩ := List.mem_map.1 hd
    rw [hc p hp] at e3; cases e3
  obtain rfl := hch _ _ _ e1 hi e2 hc
  rw [Proc.bind_of_ok h5]
  have hfr : (baseFile h sec chs').front E = h.bytes ++ optSecBytes E sec ++ placeholder h := by
    unfold File.front baseFile File.secBytes optSecBytes
    cases sec <;> simp
  have hclen : (chs'.map (·.1)).length = h.nchunks.toNat := by
    rw [List.length_map, hnch, ← hlen, ← e1, List.length_map]
  have hfl := frontWrites_flatten (h := h) hv chs'
  have hfp : wrote A [] lg (frontWrites E h sec ++ chunksWrites impl (chs'.map (·.1))) =
      Z (A ++ (baseFile h sec chs').bytes E) [] (lg ++ seqLog A.length (frontWrites E h sec ++ chunksWrites impl (chs'.map (·.1)))) := by
    have := base_wrote_data (E := E) (h := h) hv chs' (chs'.map (·.1))
    rw [hbi] at this
    unfold wrote
    rw [this, List.drop_nil]
    unfold File.bytes File.body
    rw [hbi]
    simp [baseFile]
  constructor
  · intro ho
    have h6 : (compressedFPSink E).finalize (afterChunks (mkSink h impl (wrote A [] lg (frontWrites E h sec)) (s0.meta_total + (optSecBytes E sec).length) (if h.offsets then List.replicate h.nchunks.toNat (-1) else s0.offset_storage)) A [] lg (frontWrites E h sec)
                 [] (if h.offsets then List.replicate h.nchunks.toNat (-1) else s0.offset_storage) (chs'.map (·.1))) =
        (.ok (), afterChunks (mkSink h impl (wrote A [] lg (frontWrites E h sec)) (s0.meta_total + (optSecBytes E sec).length) (if h.offsets then List.replicate h.nchunks.toNat (-1) else s0.offset_storage)) A [] lg (frontWrites E h sec)
                 [] (if h.offsets then List.replicate h.nchunks.toNat (-1) else s0.offset_storage) (chs'.map (·.1))) := by
      show FPSink.finalize _ = _
      unfold FPSink.finalize
      rw [Proc.bind_of_ok (Proc.get_apply _), if_neg (by simp [afterChunks, ho])]
      rfl
    rw [Proc.bind_of_ok h6]
    exact ⟨_, _, rfl, hfp, rfl⟩
  · intro ho raw hr
    have hst : (afterChunks (mkSink h impl (wrote A [] lg (frontWrites E h sec)) (s0.meta_total + (optSecBytes E sec).length) (if h.offsets then List.replicate h.nchunks.toNat (-1) else s0.offset_storage)) A [] lg (frontWrites E h sec)
                 [] (if h.offsets then List.replicate h.nchunks.toNat (-1) else s0.offset_storage) (chs'.map (·.1))).offset_storage =
        Spec.positions ((baseFile h sec chs').impl E).function (A.length + ((baseFile h sec chs').front E).length) (chs'.map (·.1)) := by
      show (if h.offsets = true then ([] : List Int) ++ (Spec.positions impl.function
        (A.length + (frontWrites E h sec).flatten.length) (chs'.map (·.1)) ++ List.drop _ _) else _) = _
      rw [if_pos ho, hbi, ← hfl, if_pos ho, List.drop_of_length_le (by rw [hclen]; simp)]
      simp only [List.nil_append, List.append_nil]
    generalize hT : (afterChunks (mkSink h impl (wrote A [] lg (frontWrites E h sec)) (s0.meta_total + (optSecBytes E sec).length) (if h.offsets then List.replicate h.nchunks.toNat (-1) else s0.offset_storage)) A [] lg (frontWrites E h sec)
                 [] (if h.offsets then List.replicate h.nchunks.toNat (-1) else s0.offset_storage) (chs'.map (·.1))) = T at hst
    have hTh : T.header = h := by rw [← hT]; rfl
    have hTm : T.meta_total = s0.meta_total + (optSecBytes E sec).length := by rw [← hT]; rfl
    have hTf : T.fp = Z (A ++ (baseFile h sec chs').bytes E) []
        (lg ++ seqLog A.length (frontWrites E h sec ++ chunksWrites impl (chs'.map (·.1)))) := by rw [← hT]; exact hfp
    have hTd : T.fp.data = A ++ (baseFile h sec chs').bytes E := by rw [hTf]; simp [Z]
    have h6' : (compressedFPSink E).finalize T = _ := finalize_overlay (by rw [hTh]; exact ho) (by rw [hst]; exact hr)
    rw [Proc.bind_of_ok h6']
    refine ⟨_, rfl, ?_, ?_, hTm⟩
    · simp only [hTd, hTm]
    · simp only [hTm]

/-- `pack` at the end of a file that holds `A`, when nothing goes wrong before the offsets are written -/
theorem pack_at {E : Env μ} (L : E.Laws) (src : PlainSource) (n c l : Int) (md : Option μ) (a : BloscArgs) (b : BloscpackArgs)
    (m : MetadataArgs) (hn : 1 ≤ n) (items : List Bytes) (hsrc : src c l n = ⟨items, none⟩) (hlen : items.length = n.toNat)
    (A : Bytes) (lg : List (Nat × Bytes)) {h : BloscpackHeader} (hph : packHeader n c l md a b = .ok h) {sec : Option (Section μ)}
    {m' : MetadataArgs} (hs : SecFor E md m sec m') (hb : offsetsLen h < 2 ^ 63) {chs : List (Bytes × Bytes)}
    (hi : chs.map (·.2) = items) (hc : ∀ p ∈ chs, E.compress p.2 a = .ok p.1) :
    (h.offsets = false → ∃ s lg', pack E src (compressedFPSink E) n c l md a b m { fp := Z A [] lg } = (.ok m', s) ∧
      s.fp = Z (A ++ (baseFile h sec chs).bytes E) [] lg') ∧
    (h.offsets = true → ∀ raw, encodeOffsets (Spec.positions ((baseFile h sec chs).impl E).function
        (A.length + ((baseFile h sec chs).front E).length) (chs.map (·.1))) = .ok raw →
      ∃ s, pack E src (compressedFPSink E) n c l md a b m { fp := Z A [] lg } = (.ok m', s) ∧
        s.fp.data = (A ++ (baseFile h sec chs).bytes E).take (32 + (optSecBytes E sec).length) ++
          (raw ++ (A ++ (baseFile h sec chs).bytes E).drop (32 + (optSecBytes E sec).length + raw.length)) ∧
        s.fp.pos = 32 + (optSecBytes E sec).length + raw.length) := by
  have key := pack_with L src n c l md a b m hn items hsrc hlen A lg (s0 := { fp := Z A [] lg }) rfl hph hs hb hi hc
  simp only [Nat.zero_add] at key
  refine ⟨fun ho => ?_, fun ho raw hr => ?_⟩
  · obtain ⟨s, lg', h1, h2, -⟩ := key.1 ho
    exact ⟨s, lg', h1, h2⟩
  · have hk := base_long E h sec chs A
    obtain ⟨s, h1, h2, h3, -⟩ := key.2 ho raw hr
    exact ⟨s, h1, by rw [h2, overlay_of_le hk], h3⟩

/-- the parts of a packing that succeeded on its own -/
theorem packed_alone {E : Env μ} (L : E.Laws) {data : Bytes} {cs : ChunkSizeArg} {md : Option μ} {a : BloscArgs}
    {b : BloscpackArgs} {m : MetadataArgs} {out : Bytes} (h : packBytesToBytes E data cs md a b m = .ok out) :
    ∃ n c l items hd sec m' chs, calculateNchunks data.length cs = .ok (n, c, l) ∧ 1 ≤ n ∧
      plainFPSource { data := data } c l n = ⟨items, none⟩ ∧ items.length = n.toNat ∧ packHeader n c l md a b = .ok hd ∧
      SecFor E md m sec m' ∧ offsetsLen hd < 2 ^ 63 ∧ chs.map (·.2) = items ∧ (∀ p ∈ chs, E.compress p.2 a = .ok p.1) ∧
      (hd.offsets = false ∧ out = (baseFile hd sec chs).bytes E ∨
       hd.offsets = true ∧ out = (packedFile E hd sec chs).bytes E ∧ ∃ raw, encodeOffsets (Spec.positions
        ((baseFile hd sec chs).impl E).function ((baseFile hd sec chs).front E).length (chs.map (·.1))) = .ok raw) := by
  unfold packBytesToBytes at h
  cases hcn : calculateNchunks data.length cs with
  | error e => rw [hcn] at h; cases h
  | ok r =>
    obtain ⟨n, c, l⟩ := r
    rw [hcn] at h
    simp only at h
    obtain ⟨init, tl, h1, h2, -, -, -, h6, -⟩ := calculate_items hcn
    have hlen : (init ++ [tl]).length = n.toNat := by simp; omega
    rcases pack_run L (plainFPSource { data := data }) n c l md a b m h6 (init ++ [tl]) h1 hlen with ⟨e, -, hp⟩ | ⟨hd, hph, hrun⟩
    · rw [hp] at h; cases h
    · generalize pack E _ _ n c l md a b m _ = q at h hrun
      obtain ⟨r, s⟩ := q
      cases r with
      | error e => cases h
      | ok m' =>
        simp only at h
        split at h
        · cases h
        injection h with h
        cases hrun with
        | plain sec m' hs hb chs hi hc ho fp hfp =>
          refine ⟨n, c, l, _, hd, sec, m', chs, rfl, h6, h1, hlen, hph, hs, hb, hi, hc, .inl ⟨ho, ?_⟩⟩
          rw [← h, hfp, wrote_base_data hs.valid]
        | full sec m' hs hb chs hi hc ho raw he fp hd' hl hp =>
          exact ⟨n, c, l, _, hd, sec, m', chs, rfl, h6, h1, hlen, hph, hs, hb, hi, hc, .inr ⟨ho, by rw [← h, hd'], raw, he⟩⟩

/-- reading the beginning of an archive wherever it lies -/
theorem readBeginning_at {E : Env μ} (L : E.Laws) {F : File μ} (hv : F.Pre E) (A R : Bytes) (l) :
    ∃ os, readBeginning E (Z A (F.front E ++ R) l) =
      (.ok (F.header, F.metadata, F.sec.map (·.header), os), Z (A ++ F.front E) R l) ∧
      (F.header.offsets = true → decodeOffsets F.offsets F.header.nchunks.toNat = .ok os) ∧
      (F.header.offsets = false → os = []) := by
  have hn : 0 ≤ F.header.nchunks := by have := hv.nchunks_le; omega
  have hm : 0 ≤ F.header.max_app_chunks := hv.ok.2.2.2.2.2.2.1.1
  obtain ⟨os, h1, h2, h3, -⟩ := readOffsets_ok hn hm (A ++ F.header.bytes ++ F.secBytes E) F.offsets R l hv.offsets_len hv.offsets_small
  refine ⟨os, ?_, h2, h3⟩
  have hf : F.front E ++ R = F.header.bytes ++ (F.secBytes E ++ (F.offsets ++ R)) := by simp [File.front]
  unfold readBeginning
  rw [hf, Proc.bind_of_ok (readHeader_ok hv.ok hv.version A _ l)]
  have hflag := hv.meta_flag
  cases hs : F.sec with
  | none =>
    rw [hs] at hflag
    have hb : F.secBytes E = [] := by simp [File.secBytes, hs]
    have hf2 : F.header.metadata = false := by simpa using hflag
    rw [hb] at h1 ⊢
    simp only [hf2]
    simp only [List.nil_append, List.append_nil] at h1 ⊢
    rw [Proc.bind_of_ok (a := (none, none)) (s' := Z (A ++ F.header.bytes) (F.offsets ++ R) l) (by simp),
      Proc.bind_of_ok h1]
    simp [File.metadata, hs, File.front, hb]
  | some s =>
    rw [hs] at hflag
    have hb : F.secBytes E = s.bytes E := by simp [File.secBytes, hs]
    have hf2 : F.header.metadata = true := by simpa using hflag
    rw [hb] at h1 ⊢
    simp only [hf2, if_true]
    have hr := readMetadata_section L (hv.sec_ok s hs) (A ++ F.header.bytes) (F.offsets ++ R) l
    rw [Proc.bind_of_ok (a := (s.metadata, some s.header)) (s' := Z (A ++ F.header.bytes ++ s.bytes E) (F.offsets ++ R) l)
      (by rw [Proc.bind_of_ok hr]; rfl), Proc.bind_of_ok h1]
    simp [File.metadata, hs, File.front, hb]

/-- unpacking an archive wherever it lies -/
theorem unpackNext_at {E : Env μ} (L : E.Laws) {F : File μ} (hv : F.Valid E) (hj : F.junk = []) (A R : Bytes) (l) :
    unpackNext E (Z A (F.bytes E ++ R) l) = (.ok (F.metadata, F.data), Z (A ++ F.bytes E) R l) := by
  obtain ⟨os, h1, -⟩ := readBeginning_at L hv.toPre A (F.body E ++ R) l
  obtain ⟨hl1, hl2, -⟩ := File.lookup hv.toPre
  have hb : F.bytes E = F.front E ++ F.body E := by simp [File.bytes, hj]
  unfold unpackNext
  rw [hb, List.append_assoc, h1]
  simp only [hl1]
  obtain ⟨lo, h2⟩ := unpackLoop_records L (h := F.header) hl2 F.chunks hv.chunks_ok (A ++ F.front E) R l [] [] 0 0
  have hn : (compressedFPSource F.header (F.impl E)).nchunks.toNat = F.chunks.length + 0 := by
    show F.header.nchunks.toNat = _
    rw [hv.nchunks]; omega
  have ho : ({ data := [] } : FP) = Z [] [] [] := rfl
  unfold unpack
  rw [hn, ho]
  unfold File.body
  rw [h2]
  simp [unpackLoop, Except.map, File.data]

end Bloscpack
