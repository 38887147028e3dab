import Verif.Props.MemorySizes
import Verif.Lemmas.Damage
/-
C80 for files: a list of chunks packed into a file, with a number of chunks that is not the length of the list.
-/
namespace Bloscpack
variable {μ : Type}

/-- packing into a file is the loop over the chunks and `finalize`, once the beginning of the file is written -/
theorem pack_fp_eq {E : Env μ} (L : E.Laws) (src : PlainSource) (n c l : Int) (md : Option μ) (a : BloscArgs) (b : BloscpackArgs)
    (m : MetadataArgs) (hn : 0 ≤ n) (items : List Bytes) (hsrc : src c l n = ⟨items, none⟩) :
    (∃ e s, pack E src (compressedFPSink E) n c l md a b m ({ fp := { data := [] } } : FPSink) = (.error e, s)) ∨
    ∃ h impl sec m', packHeader n c l md a b = .ok h ∧ h.checksumImpl E = .ok impl ∧ SecFor E md m sec m' ∧ offsetsLen h < 2 ^ 63 ∧
      pack E src (compressedFPSink E) n c l md a b m ({ fp := { data := [] } } : FPSink) =
        (packLoop E (compressedFPSink E) a 0 items >>= fun _ => FPSink.finalize >>= fun _ => Proc.pure m')
          (mkSink h impl (wrote [] [] [] (frontWrites E h sec)) (optSecBytes E sec).length
            (if h.offsets then List.replicate n.toNat (-1) else [])) := by
  unfold pack
  cases hph : packHeader n c l md a b with
  | error e =>
    refine .inl ⟨e, ({ fp := { data := [] } } : FPSink), ?_⟩
    rw [Proc.bind_of_error (Proc.ofExcept_apply _ _)]
  | ok h =>
    obtain ⟨hok, -, -, -, -, -, -, -, hnch, -⟩ := packHeader_ok hph
    obtain ⟨impl, himpl, -, -⟩ := checksumLookup_of (hl := E.hashlib) hok.2.1
    have himpl' : h.checksumImpl E = .ok impl := himpl
    rw [Proc.bind_of_ok (Proc.ofExcept_apply _ _)]
    have h1 : (compressedFPSink E).configure a h ({ fp := { data := [] } } : FPSink) =
        (.ok (), (mkSink h impl (wrote [] [] [] []) 0 [])) := by
      show (Proc.ofExcept (h.checksumImpl E) >>= _) _ = _
      rw [Proc.bind_of_ok (Proc.ofExcept_apply _ _ |>.trans (by rw [himpl']))]
      rfl
    rw [Proc.bind_of_ok h1]
    have h2 : (compressedFPSink E).writeBloscpackHeader (mkSink h impl (wrote [] [] [] []) 0 []) =
        (.ok (), (mkSink h impl (wrote [] [] [] [h.bytes]) 0 [])) := by
      show (Proc.get >>= _) _ = _
      rw [Proc.bind_of_ok (Proc.get_apply _),
        Proc.bind_of_ok (Proc.ofExcept_apply _ _ |>.trans (by rw [mkSink_header, BloscpackHeader.encode_ok hok]))]
      exact onFP_of (s := mkSink h impl (wrote [] [] [] []) 0 []) (fpWrite_wrote _ _ _ _ _)
    rw [Proc.bind_of_ok h2]
    have h3 : (∃ e, packMetadata (compressedFPSink E) md m (mkSink h impl (wrote [] [] [] [h.bytes]) 0 []) =
          (.error e, (mkSink h impl (wrote [] [] [] [h.bytes]) 0 []))) ∨
        ∃ sec m', SecFor E md m sec m' ∧ packMetadata (compressedFPSink E) md m (mkSink h impl (wrote [] [] [] [h.bytes]) 0 []) =
          (.ok m', (mkSink h impl (wrote [] [] [] ([h.bytes] ++ optSecWrites E sec)) (optSecBytes E sec).length [])) := by
      cases md with
      | none => exact .inr ⟨none, m, .inl ⟨rfl, rfl, rfl⟩, rfl⟩
      | some x =>
        cases hp : prepareMetadata E (some x) m with
        | error e => exact .inl ⟨e, writeMeta_sink_error hp _⟩
        | ok S =>
          obtain ⟨sec, hsec⟩ := prepareMetadata_ok L hp
          refine .inr ⟨some sec, S.args, .inr ⟨S, sec, rfl, hp, hsec, rfl, rfl⟩, ?_⟩
          refine (writeMeta_sink L hp hsec rfl).trans ?_
          simp [optSecWrites, optSecBytes, mkSink]
    rcases h3 with ⟨e, h3⟩ | ⟨sec, m', hs, h3⟩
    · rw [Proc.bind_of_error h3]
      exact .inl ⟨_, _, rfl⟩
    rw [Proc.bind_of_ok h3]
    by_cases hb : 2 ^ 63 ≤ offsetsLen h
    · obtain ⟨st, h4⟩ := initOffsets_overflow (s := (mkSink h impl (wrote [] [] [] ([h.bytes] ++ optSecWrites E sec)) (optSecBytes E sec).length []))
        (by show 0 ≤ h.nchunks; omega) hb
      have h4' : (compressedFPSink E).initOffsets (mkSink h impl (wrote [] [] [] ([h.bytes] ++ optSecWrites E sec)) (optSecBytes E sec).length []) = _ := h4
      rw [Proc.bind_of_error h4']
      exact .inl ⟨_, _, rfl⟩
    replace hb : offsetsLen h < 2 ^ 63 := by omega
    refine .inr ⟨h, impl, sec, m', rfl, himpl', hs, hb, ?_⟩
    have h4 := initOffsets_wrote (s := (mkSink h impl (wrote [] [] [] ([h.bytes] ++ optSecWrites E sec)) (optSecBytes E sec).length [])) rfl
      (by show 0 ≤ h.nchunks; omega) hb
    have h4' : (compressedFPSink E).initOffsets (mkSink h impl (wrote [] [] [] ([h.bytes] ++ optSecWrites E sec)) (optSecBytes E sec).length []) =
        (.ok (), (mkSink h impl (wrote [] [] [] (frontWrites E h sec)) (optSecBytes E sec).length (if h.offsets then List.replicate n.toNat (-1) else []))) := by
      refine h4.trans ?_
      rw [← hnch]
      simp [frontWrites, mkSink]
      exact ⟨rfl, rfl⟩
    rw [Proc.bind_of_ok h4']
    simp only [hsrc]
    rfl

/-- more chunks than entries for offsets: the loop fails -/
theorem packLoop_fp_over {E : Env μ} (a : BloscArgs) (ds : List Bytes) (i : Nat) (s : FPSink) (ho : s.header.offsets = true)
    (hi : s.impl ∈ checksums E.hashlib) {A R l bss} (hfp : s.fp = wrote A R l bss) (h : s.offset_storage.length < i + ds.length)
    (hle : i ≤ s.offset_storage.length) :
    ∃ e s', packLoop E (compressedFPSink E) a i ds s = (.error e, s') := by
  induction ds generalizing i s bss with
  | nil => simp at h; omega
  | cons d ds ih =>
    simp only [List.length_cons] at h
    unfold packLoop
    cases hc : E.compress d a with
    | error e =>
      rw [Proc.bind_of_error (Proc.ofExcept_apply _ _)]
      exact ⟨_, _, rfl⟩
    | ok c =>
      rw [Proc.bind_of_ok (Proc.ofExcept_apply _ _)]
      by_cases hlt : i < s.offset_storage.length
      · have hput := put_wrote (E := E) hi hfp i c (fun _ => hlt)
        have hput' : (compressedFPSink E).put i c s = _ := hput
        rw [Proc.bind_of_ok hput']
        refine ih (i + 1) _ ho hi rfl ?_ ?_
        · simp [ho]; omega
        · simp [ho]; omega
      · have hput : ∃ s', (compressedFPSink E).put i c s = (.error .indexError, s') := by
          show ∃ s', FPSink.put i c s = _
          unfold FPSink.put
          rw [Proc.bind_of_ok (Proc.get_apply s), hfp, doChecksum_eq hi]
          have h1 : FPSink.onFP (writeCompressedChunk c (s.impl.function c)) s =
              (.ok (), { s with fp := wrote A R l (bss ++ chunkWrites s.impl c) }) := by
            unfold FPSink.onFP
            rw [hfp, writeCompressedChunk_wrote]
          rw [Proc.bind_of_ok h1, if_pos ho]
          rw [Proc.bind_of_error (Proc.ofExcept_apply _ _ |>.trans (by rw [setItem, if_neg hlt]))]
          exact ⟨_, rfl⟩
        obtain ⟨s', hput⟩ := hput
        rw [Proc.bind_of_error hput]
        exact ⟨_, _, rfl⟩

/-- C80, more chunks than announced, a file with offsets: packing fails -/
theorem C80_file_too_many_partial (E : Env μ) (L : E.Laws) (chunks : List Bytes) (n c l : Int) (md : Option μ) (a : BloscArgs)
    (b : BloscpackArgs) (m : MetadataArgs) (h0 : 0 ≤ n) (hn : n < chunks.length) (ho : b.offsets = true) :
    ∃ e s, pack E (plainMemorySource chunks) (compressedFPSink E) n c l md a b m ({ fp := { data := [] } } : FPSink) = (.error e, s) := by
  rcases pack_fp_eq (E := E) L (plainMemorySource chunks) n c l md a b m h0 chunks rfl with h | ⟨h, impl, sec, m', h1, h2, h3, -, h4⟩
  · exact h
  · obtain ⟨hok, -, hof, -⟩ := packHeader_ok h1
    have hof' : h.offsets = true := by simp_all
    obtain ⟨e, s', h5⟩ := packLoop_fp_over (E := E) a chunks 0 (mkSink h impl (wrote [] [] [] (frontWrites E h sec)) (optSecBytes E sec).length
            (if h.offsets then List.replicate n.toNat (-1) else [])) hof' (checksumLookup_mem h2).1 rfl (by simp [hof']; omega) (Nat.zero_le _)
    rw [h4, Proc.bind_of_error h5]
    exact ⟨_, _, rfl⟩

/-- what packing at most as many chunks as announced, or any number into a file without offsets, leaves behind -/
theorem pack_fp_short {E : Env μ} (L : E.Laws) {chunks : List Bytes} {n c l : Int} {md : Option μ} {a : BloscArgs} {b : BloscpackArgs}
    {m m' : MetadataArgs} {s : FPSink} (h0 : 0 ≤ n) (hn : b.offsets = true → (chunks.length : Int) ≤ n)
    (h : pack E (plainMemorySource chunks) (compressedFPSink E) n c l md a b m ({ fp := { data := [] } } : FPSink) = (.ok m', s)) :
    ∃ (hd : BloscpackHeader) (sec : Option (Section μ)) (offsets : Bytes) (chs : List (Bytes × Bytes)),
      packHeader n c l md a b = .ok hd ∧ SecFor E md m sec m' ∧ offsetsLen hd < 2 ^ 63 ∧ offsets.length = offsetsLen hd ∧
      chs.map (·.2) = chunks ∧ (∀ p ∈ chs, E.compress p.2 a = .ok p.1) ∧
      s.fp.data = ({ header := hd, sec := sec, offsets := offsets, chunks := chs, junk := [] } : File μ).bytes E := by
  rcases pack_fp_eq (E := E) L (plainMemorySource chunks) n c l md a b m h0 chunks rfl with ⟨e, s', h1⟩ | ⟨hd, impl, sec, m1, h1, h2, h3, hsm, h4⟩
  · rw [h1] at h; cases h
  obtain ⟨hok, -, hof, -, -, -, -, -, hnch, -⟩ := packHeader_ok h1
  have hi := (checksumLookup_mem h2).1
  have hv := h3.valid
  have hbi : ∀ (sec : Option (Section μ)) chs, (baseFile hd sec chs).impl E = impl := by
    intro sec chs; simp [File.impl, baseFile, h2]
  have hFi : ∀ (offsets : Bytes) chs, ({ header := hd, sec := sec, offsets := offsets, chunks := chs, junk := [] } : File μ).impl E = impl := by
    intro sec chs; simp [File.impl, h2]
  rw [h4] at h
  have h5 := packLoop_wrote (E := E) a chunks (mkSink hd impl (wrote [] [] [] (frontWrites E hd sec)) (optSecBytes E sec).length
    (if hd.offsets then List.replicate n.toNat (-1) else [])) hi rfl [] (if hd.offsets then List.replicate n.toNat (-1) else []) (by simp)
    (by intro ho; have ho : hd.offsets = true := ho; have := hn (by simp_all); simp [ho]; omega)
  simp only [List.length_nil] at h5
  rcases h5 with ⟨chs, e1, e2, h5⟩ | ⟨_, _, _, e, -, -, -, h5⟩
  rotate_left
  · rw [Proc.bind_of_error h5] at h; cases h
  rw [Proc.bind_of_ok h5] at h
  have hfr : (baseFile hd sec chs).front E = hd.bytes ++ optSecBytes E sec ++ placeholder hd := by
    unfold File.front baseFile File.secBytes optSecBytes
    cases sec <;> simp
  have hsb : ∀ (offsets : Bytes), ({ header := hd, sec := sec, offsets := offsets, chunks := chs, junk := [] } : File μ).secBytes E = optSecBytes E sec := by
    intro o; unfold File.secBytes optSecBytes; cases sec <;> rfl
  have hfl := frontWrites_flatten (h := hd) hv chs
  have hdat : (afterChunks (mkSink hd impl (wrote [] [] [] (frontWrites E hd sec)) (optSecBytes E sec).length
      (if hd.offsets then List.replicate n.toNat (-1) else [])) [] [] [] (frontWrites E hd sec) []
      (if hd.offsets then List.replicate n.toNat (-1) else []) (chs.map (·.1))).fp.data =
      (hd.bytes ++ optSecBytes E sec) ++ (placeholder hd ++ Spec.records impl.function (chs.map (·.1))) := by
    show ([] ++ (frontWrites E hd sec ++ chunksWrites impl (chs.map (·.1))).flatten) ++ List.drop _ [] = _
    rw [List.drop_nil, List.append_nil, List.nil_append]
    have := base_wrote_data (E := E) (h := hd) hv chs (chs.map (·.1))
    rw [hbi] at this
    rw [this, hfr]
    simp
  cases ho : hd.offsets with
  | false =>
    have h6 : ∀ (t : FPSink), t.header = hd → FPSink.finalize t = (.ok (), t) := by
      intro t ht
      unfold FPSink.finalize
      rw [Proc.bind_of_ok (Proc.get_apply _), if_neg (by simp [ht, ho])]
      rfl
    rw [Proc.bind_of_ok (h6 _ rfl)] at h
    cases h
    refine ⟨hd, sec, placeholder hd, chs, h1, h3, hsm, placeholder_length hd, e1, e2, ?_⟩
    rw [hdat]
    unfold File.bytes File.front File.body
    rw [hsb, hFi]
    simp
  | true =>
    generalize hT : (afterChunks (mkSink hd impl (wrote [] [] [] (frontWrites E hd sec)) (optSecBytes E sec).length
      (if hd.offsets then List.replicate n.toNat (-1) else [])) [] [] [] (frontWrites E hd sec) []
      (if hd.offsets then List.replicate n.toNat (-1) else []) (chs.map (·.1))) = T at h hdat
    have hTh : T.header = hd := by rw [← hT]; rfl
    have hTm : T.meta_total = (optSecBytes E sec).length := by rw [← hT]; rfl
    have hclen : chs.length ≤ n.toNat := by
      have := hn (by simp_all)
      rw [← e1, List.length_map] at this; omega
    have hTo : T.offset_storage.length = n.toNat := by
      rw [← hT]
      show (if hd.offsets = true then ([] : List Int) ++ (_ ++ List.drop _ _) else _).length = _
      rw [if_pos ho, if_pos ho]
      simp [positions_length]
      omega
    rcases finalize_wrote (s := T) (by rw [hTh]; exact ho) _ _ _ hdat rfl (by first | rfl | (rw [← hT]; rfl))
        (by simp [BloscpackHeader.bytes_length, hTm]) with ⟨raw, hr, h6⟩ | ⟨e, hr, h6⟩
    · rw [Proc.bind_of_ok h6] at h
      cases h
      have hrl : raw.length = 8 * n.toNat := by rw [((encodeOffsets_iff _ _).1 hr).2, int64s_length, hTo]
      have hm0 : 0 ≤ hd.max_app_chunks := hok.2.2.2.2.2.2.1.1
      have hpl : (placeholder hd).length = 8 * (n.toNat + hd.max_app_chunks.toNat) := by
        rw [placeholder, if_pos ho, int64s_length, List.length_replicate]; omega
      refine ⟨hd, sec, raw ++ (placeholder hd).drop raw.length, chs, h1, h3, hsm, ?_, e1, e2, ?_⟩
      · rw [← placeholder_length hd, List.length_append, List.length_drop]; omega
      · show (hd.bytes ++ optSecBytes E sec ++ raw) ++ List.drop raw.length _ = _
        rw [List.drop_append_of_le_length (by omega)]
        unfold File.bytes File.front File.body
        rw [hsb, hFi]
        simp
    · rw [Proc.bind_of_error h6] at h; cases h

/-- C80, fewer chunks than announced, any file: unpacking it is an error, after all chunks were delivered -/
theorem C80_file_too_few (E : Env μ) (L : E.Laws) (chunks : List Bytes) (n c l : Int) (md : Option μ) (a : BloscArgs)
    (b : BloscpackArgs) (m m' : MetadataArgs) (s : FPSink) (hn : chunks.length < n)
    (h : pack E (plainMemorySource chunks) (compressedFPSink E) n c l md a b m ({ fp := { data := [] } } : FPSink) = (.ok m', s)) :
    ∃ e, unpackFrom E s.fp.data = (.error e, chunks.flatten) := by
  obtain ⟨hd, sec, offsets, chs, h1, h2, hsm, h3, rfl, h5, h6⟩ := pack_fp_short L (by omega) (fun _ => Int.le_of_lt hn) h
  obtain ⟨hok, hver, -, hmd, -, -, -, -, hnch, -⟩ := packHeader_ok h1
  rw [List.length_map] at hn
  have hpre : ({ header := hd, sec := sec, offsets := offsets, chunks := chs, junk := [] } : File μ).Pre E := {
    ok := hok
    version := hver
    meta_flag := by show hd.metadata = sec.isSome; rw [← h2.isSome]; exact hmd
    sec_ok := h2.valid
    offsets_len := h3
    offsets_small := hsm
    nchunks_le := by show (chs.length : Int) ≤ hd.nchunks; omega
    chunks_ok := fun p hp => L.decompress_compress _ _ _ (h5 p hp) }
  obtain ⟨lo, h7⟩ := unpackFrom_pre L hpre
  rw [h6, h7]
  obtain ⟨k, hk⟩ : ∃ k, hd.nchunks.toNat - chs.length = k + 1 := ⟨hd.nchunks.toNat - chs.length - 1, by omega⟩
  dsimp only
  rw [hk]
  obtain ⟨e, s', h8⟩ := unpackLoop_exhausted (E := E) (h := hd) (impl := ({ header := hd, sec := sec, offsets := offsets, chunks := chs, junk := [] } : File μ).impl E)
    (Z (({ header := hd, sec := sec, offsets := offsets, chunks := chs, junk := [] } : File μ).front E ++
      ({ header := hd, sec := sec, offsets := offsets, chunks := chs, junk := [] } : File μ).body E) [] [])
    (Z (chs.map (·.2)).flatten [] lo) k chs.length (by simp [Z])
  refine ⟨e, ?_⟩
  have : ({ header := hd, sec := sec, offsets := offsets, chunks := chs, junk := [] } : File μ).data = (chs.map (·.2)).flatten := rfl
  rw [this, h8]
  simp [Except.map, Z]

/-- C80 is violated: more chunks than announced are packed into a file without offsets without complaint, and unpacking
it gives the announced number of chunks, without complaint. -/
theorem C80_violated (E : Env μ) (L : E.Laws) (chunks : List Bytes) (n : Nat) (c l : Int) (md : Option μ) (a : BloscArgs)
    (b : BloscpackArgs) (m m' : MetadataArgs) (s : FPSink) (hn : n < chunks.length) (ho : b.offsets = false)
    (h : pack E (plainMemorySource chunks) (compressedFPSink E) n c l md a b m ({ fp := { data := [] } } : FPSink) = (.ok m', s)) :
    unpackBytesFromBytes E s.fp.data = .ok ((chunks.take n).flatten, md) := by
  obtain ⟨hd, sec, offsets, chs, h1, h2, hsm, h3, rfl, h5, h6⟩ := pack_fp_short L (by omega) (fun h => by rw [ho] at h; cases h) h
  obtain ⟨hok, hver, -, hmd, -, -, -, -, hnch, -⟩ := packHeader_ok h1
  rw [List.length_map] at hn
  obtain ⟨G, hG⟩ : ∃ G : File μ, G = ⟨hd, sec, offsets, chs.take n,
    Spec.records (({ header := hd, sec := sec, offsets := offsets, chunks := chs, junk := [] } : File μ).impl E).function
        ((chs.drop n).map (·.1))⟩ := ⟨_, rfl⟩
  have hx : s.fp.data = G.bytes E := by
    rw [h6, hG]
    unfold File.bytes File.body
    have : chs.map (·.1) = (chs.take n).map (·.1) ++ (chs.drop n).map (·.1) := by rw [← List.map_append, List.take_append_drop]
    dsimp only
    rw [this, records_append]
    simp [File.impl, File.front, File.secBytes]
  have hval : G.Valid E := by
    subst hG
    exact {
      ok := hok
      version := hver
      meta_flag := by show hd.metadata = sec.isSome; rw [← h2.isSome]; exact hmd
      sec_ok := h2.valid
      offsets_len := h3
      offsets_small := hsm
      nchunks_le := by simp; omega
      chunks_ok := fun p hp => L.decompress_compress _ _ _ (h5 p (List.take_subset _ _ hp))
      nchunks := by simp; omega }
  have h8 := unpackFrom_file L hval
  rw [← hx, h2.metadata_eq (F := G) (by rw [hG]), show G.data = ((chs.map (·.2)).take n).flatten by rw [hG, ← List.map_take]; rfl] at h8
  exact unpackBytes_ok h8

/-- three chunks and a header that says two, or four, as in the theorems above -/
example :
    (pack Toy.env (plainMemorySource [[1, 2], [3, 4], [5]]) (compressedMemorySink Toy.env) 2 2 1 none {} {} {} {}).1.toBool = false ∧
    (pack Toy.env (plainMemorySource [[1, 2], [3, 4], [5]]) (compressedMemorySink Toy.env) 4 2 1 none {} {} {} {}).1.toBool = true ∧
    (pack Toy.env (plainMemorySource [[1, 2], [3, 4], [5]]) (compressedFPSink Toy.env) 2 2 1 none {} {} {} ({ fp := { data := [] } } : FPSink)).1.toBool = false ∧
    (pack Toy.env (plainMemorySource [[1, 2], [3, 4], [5]]) (compressedFPSink Toy.env) 2 2 1 none {} { offsets := false, max_app_chunks := .int 0 } {}
      ({ fp := { data := [] } } : FPSink)).1.toBool = true := by
  decide +kernel

example : (unpackBytesFromBytes Toy.env (pack Toy.env (plainMemorySource [[1, 2], [3, 4], [5]]) (compressedFPSink Toy.env) 2 2 1 none {}
    { offsets := false, max_app_chunks := .int 0 } {} ({ fp := { data := [] } } : FPSink)).2.fp.data).toOption = some ([1, 2, 3, 4], none) := by
  decide +kernel

example : (unpackFrom Toy.env (pack Toy.env (plainMemorySource [[1, 2], [3, 4], [5]]) (compressedFPSink Toy.env) 4 2 1 none {}
    {} {} ({ fp := { data := [] } } : FPSink)).2.fp.data).2 = [1, 2, 3, 4, 5] := by
  decide +kernel

end Bloscpack
