import Verif.Lemmas.Pack
import Verif.Props.Args
/-
Packing produces conforming files.
-/
namespace Bloscpack
variable {μ : Type}

theorem calculate_items_at {data : Bytes} {cs : ChunkSizeArg} {n c l : Int}
    (h : calculateNchunks data.length cs = .ok (n, c, l)) (A : Bytes) (lg : List (Nat × Bytes)) :
    ∃ init tl, plainFPSource (Z A data lg) c l n = ⟨init ++ [tl], none⟩ ∧ (init.length : Int) = n - 1 ∧
      (∀ b ∈ init, (b.length : Int) = c) ∧ (tl.length : Int) = l ∧ (init ++ [tl]).flatten = data ∧ 1 ≤ n ∧
      ((1 ≤ l ∧ l ≤ c) ∨ (n = 1 ∧ c = 0 ∧ l = 0)) := by
  obtain ⟨h1, h2, -, h4, -, h5, h6⟩ := C02_chunking_covers _ _ _ _ _ h
  have hcl : 0 ≤ l ∧ 0 ≤ c := by
    by_cases hz : (data.length : Int) = 0
    · have := h5 hz; omega
    · have := (h6 hz).1; omega
  have hgeo : (1 ≤ l ∧ l ≤ c) ∨ (n = 1 ∧ c = 0 ∧ l = 0) := by
    by_cases hz : (data.length : Int) = 0
    · exact .inr (h5 hz)
    · exact .inl ⟨(h6 hz).1, h4⟩
  have hlen : data.length = (n - 1).toNat * c.toNat + l.toNat := by
    have e1 : ((n - 1).toNat : Int) = n - 1 := Int.toNat_of_nonneg (by omega)
    have e2 : (c.toNat : Int) = c := Int.toNat_of_nonneg hcl.2
    have e3 : (l.toNat : Int) = l := Int.toNat_of_nonneg hcl.1
    have : (data.length : Int) = (((n - 1).toNat * c.toNat + l.toNat : Nat) : Int) := by
      rw [Int.natCast_add, Int.natCast_mul, e1, e2, e3, ← h1, Int.mul_comm]
    exact_mod_cast this
  obtain ⟨init, tl, s', r1, r2, r3, r4, r5⟩ := readMany_chunks c.toNat l.toNat (n - 1).toNat A data lg hlen
  refine ⟨init, tl, ?_, by omega, ?_, by omega, r5, h2, hgeo⟩
  · unfold plainFPSource
    have e2 : (c.toNat : Int) = c := Int.toNat_of_nonneg hcl.2
    have e3 : (l.toNat : Int) = l := Int.toNat_of_nonneg hcl.1
    rw [e2, e3] at r1
    rw [r1]
  · intro b hb; have := r3 b hb; omega

theorem calculate_items {data : Bytes} {cs : ChunkSizeArg} {n c l : Int}
    (h : calculateNchunks data.length cs = .ok (n, c, l)) :
    ∃ init tl, plainFPSource { data := data } c l n = ⟨init ++ [tl], none⟩ ∧ (init.length : Int) = n - 1 ∧
      (∀ b ∈ init, (b.length : Int) = c) ∧ (tl.length : Int) = l ∧ (init ++ [tl]).flatten = data ∧ 1 ≤ n ∧
      ((1 ≤ l ∧ l ≤ c) ∨ (n = 1 ∧ c = 0 ∧ l = 0)) :=
  calculate_items_at h [] []

/-- every packing run -/
theorem packBytes_run {E : Env μ} (L : E.Laws) (data : Bytes) (cs : ChunkSizeArg) (md : Option μ) (a : BloscArgs)
    (b : BloscpackArgs) (m : MetadataArgs) :
    (∃ e, calculateNchunks data.length cs = .error e ∧ packBytes E data cs md a b m = (.error e, none)) ∨
    ∃ n c l, calculateNchunks data.length cs = .ok (n, c, l) ∧
      ((∃ e, packHeader n c l md a b = .error e ∧ packBytes E data cs md a b m = (.error e, some { data := [] })) ∨
       ∃ h r fp init tl, packHeader n c l md a b = .ok h ∧ packBytes E data cs md a b m = (r, some fp) ∧
        PackRun E md a m (init ++ [tl]) h r fp ∧ (init.length : Int) = n - 1 ∧
        (∀ b ∈ init, (b.length : Int) = c) ∧ (tl.length : Int) = l ∧ (init ++ [tl]).flatten = data ∧ 1 ≤ n ∧
        ((1 ≤ l ∧ l ≤ c) ∨ (n = 1 ∧ c = 0 ∧ l = 0))) := by
  unfold packBytes
  cases hc : calculateNchunks data.length cs with
  | error e => exact .inl ⟨e, rfl, rfl⟩
  | ok r =>
    obtain ⟨n, c, l⟩ := r
    refine .inr ⟨n, c, l, rfl, ?_⟩
    obtain ⟨init, tl, h1, h2, h3, h4, h5, h6, h7⟩ := calculate_items hc
    rcases pack_run L (plainFPSource { data := data }) n c l md a b m h6 (init ++ [tl]) h1
      (by rw [List.length_append, List.length_singleton]; omega) with ⟨e, h8, h9⟩ | ⟨h, h8, h9⟩
    · exact .inl ⟨e, h8, by simp only [h9]⟩
    · exact .inr ⟨h, _, _, init, tl, h8, rfl, h9, h2, h3, h4, h5, h6, h7⟩

theorem placeholder_length (h : BloscpackHeader) : (placeholder h).length = offsetsLen h := by
  unfold placeholder offsetsLen
  split
  · rw [int64s_length, List.length_replicate]
  · rfl

section
variable {E : Env μ} {h : BloscpackHeader} {sec : Option (Section μ)} {chs : List (Bytes × Bytes)}

theorem packedFile_impl : (packedFile E h sec chs).impl E = (baseFile h sec chs).impl E := rfl

theorem packedFile_offsets_length (hn : (chs.length : Int) = h.nchunks) (hm : 0 ≤ h.max_app_chunks) :
    (packedFile E h sec chs).offsets.length = offsetsLen h := by
  unfold packedFile offsetsLen
  cases ho : h.offsets with
  | false => rfl
  | true =>
    simp only [if_true]
    rw [int64s_length, List.length_append, positions_length, List.length_map, List.length_replicate]
    omega

theorem packedFile_front_length (hn : (chs.length : Int) = h.nchunks) (hm : 0 ≤ h.max_app_chunks) :
    ((packedFile E h sec chs).front E).length = ((baseFile h sec chs).front E).length := by
  unfold File.front
  rw [List.length_append, List.length_append, List.length_append, List.length_append, packedFile_offsets_length hn hm]
  show _ = h.bytes.length + (_ + (placeholder h).length)
  rw [placeholder_length]; rfl

theorem baseFile_pre (L : E.Laws) (hok : h.OK) (hv : h.format_version = 3) (hsec : ∀ s, sec = some s → s.Valid E)
    (hflag : h.metadata = sec.isSome) (hb : offsetsLen h < 2 ^ 63) (hn : (chs.length : Int) ≤ h.nchunks) {a : BloscArgs}
    (hc : ∀ p ∈ chs, E.compress p.2 a = .ok p.1) : (baseFile h sec chs).Pre E where
  ok := hok
  version := hv
  meta_flag := hflag
  sec_ok := hsec
  offsets_len := placeholder_length h
  offsets_small := hb
  nchunks_le := hn
  chunks_ok := fun p hp => L.decompress_compress _ _ _ (hc p hp)

theorem packedFile_conforming (L : E.Laws) (hok : h.OK) (hv : h.format_version = 3) (hsec : ∀ s, sec = some s → s.Valid E)
    (hflag : h.metadata = sec.isSome) (hb : offsetsLen h < 2 ^ 63) (hn : (chs.length : Int) = h.nchunks) {a : BloscArgs}
    (hc : ∀ p ∈ chs, E.compress p.2 a = .ok p.1) {init tl} (hi : chs.map (·.2) = init ++ [tl])
    (hl1 : ∀ b ∈ init, (b.length : Int) = h.chunk_size) (hl2 : (tl.length : Int) = h.last_chunk)
    (hgeo : (1 ≤ h.last_chunk ∧ h.last_chunk ≤ h.chunk_size) ∨ (h.nchunks = 1 ∧ h.chunk_size = 0 ∧ h.last_chunk = 0))
    (ho : h.offsets = true → ∃ raw, encodeOffsets (Spec.positions ((baseFile h sec chs).impl E).function
      ((baseFile h sec chs).front E).length (chs.map (·.1))) = .ok raw) : (packedFile E h sec chs).Conforming E := by
  have hm : 0 ≤ h.max_app_chunks := hok.2.2.2.2.2.2.1.1
  have hfl := packedFile_front_length (E := E) (sec := sec) hn hm
  exact {
    ok := hok
    version := hv
    meta_flag := hflag
    sec_ok := hsec
    offsets_len := packedFile_offsets_length hn hm
    offsets_small := hb
    nchunks_le := by show (chs.length : Int) ≤ h.nchunks; omega
    chunks_ok := fun p hp => L.decompress_compress _ _ _ (hc p hp)
    nchunks := hn.symm
    lengths := by
      have : ∃ ini p, chs = ini ++ [p] ∧ ini.map (·.2) = init ∧ p.2 = tl := by
        rcases List.eq_nil_or_concat chs with rfl | ⟨ini, p, rfl⟩
        · simp at hi
        · rw [List.concat_eq_append, List.map_append, List.map_singleton] at hi
          obtain ⟨h1, h2⟩ := List.append_inj' hi rfl
          exact ⟨ini, p, List.concat_eq_append, h1, by simpa using h2⟩
      obtain ⟨ini, p, h1, h2, h3⟩ := this
      refine ⟨ini, p, h1, ?_, by rw [h3]; exact hl2⟩
      intro q hq
      exact hl1 q.2 (by rw [← h2]; exact List.mem_map_of_mem hq)
    sizes := hgeo
    table := by
      intro hoff
      rw [hfl]
      exact if_pos hoff
    reach := by
      intro hoff o ho2
      rw [hfl] at ho2
      obtain ⟨raw, hr⟩ := ho hoff
      have := ((encodeOffsets_iff _ _).1 hr).1 o ho2
      omega }

end

theorem SecFor.metadata_eq {E : Env μ} {md m} {sec : Option (Section μ)} {m'} (hs : SecFor E md m sec m')
    {F : File μ} (hF : F.sec = sec) : F.metadata = md := by
  unfold File.metadata
  rcases hs with ⟨h1, h, -⟩ | ⟨S, s', h1, -, h3, h2, -⟩
  · rw [hF, h, h1]
  · rw [hF, h2]; exact h3.metadata

theorem baseFile_eq_packedFile {E : Env μ} {h : BloscpackHeader} {sec : Option (Section μ)} {chs : List (Bytes × Bytes)}
    (ho : h.offsets = false) : packedFile E h sec chs = baseFile h sec chs := by
  simp [packedFile, baseFile, placeholder, ho]

theorem wrote_base_data {E : Env μ} {h : BloscpackHeader} {sec : Option (Section μ)} (hv : ∀ s, sec = some s → s.Valid E)
    (chs : List (Bytes × Bytes)) :
    (wrote [] [] [] (frontWrites E h sec ++ chunksWrites ((baseFile h sec chs).impl E) (chs.map (·.1)))).data =
      (baseFile h sec chs).bytes E := by
  unfold wrote
  rw [base_wrote_data hv]
  simp [File.bytes, File.body, baseFile]

/-- a successful packing run produced a conforming file holding the data -/
theorem packBytes_ok {E : Env μ} (L : E.Laws) {data : Bytes} {cs : ChunkSizeArg} {md : Option μ} {a : BloscArgs}
    {b : BloscpackArgs} {m m' : MetadataArgs} {out : Option FP} (h : packBytes E data cs md a b m = (.ok m', out)) :
    ∃ (fp : FP) (F : File μ) (n c l : Int), out = some fp ∧ fp.data = F.bytes E ∧ F.Conforming E ∧ F.junk = [] ∧
      F.data = data ∧ F.metadata = md ∧ SecFor E md m F.sec m' ∧ calculateNchunks data.length cs = .ok (n, c, l) ∧
      packHeader n c l md a b = .ok F.header ∧ (∀ p ∈ F.chunks, E.compress p.2 a = .ok p.1) ∧ fp.pos ≠ 0 := by
  rcases packBytes_run L data cs md a b m with ⟨e, -, h1⟩ | ⟨n, c, l, h0, ⟨e, -, h1⟩ | ⟨hd, r, fp, init, tl, h1, h2, h3, h4, h5, h6, h7, h8, h9⟩⟩
  · rw [h1] at h; cases h
  · rw [h1] at h; cases h
  · rw [h2] at h
    simp only [Prod.mk.injEq] at h
    obtain ⟨rfl, rfl⟩ := h
    obtain ⟨g1, g2, g3, g4, g5, g6, g7, g8, g9, g10⟩ := packHeader_ok h1
    have key : ∀ sec chs, SecFor E md m sec m' → offsetsLen hd < 2 ^ 63 → chs.map (·.2) = init ++ [tl] → (∀ p ∈ chs, E.compress p.2 a = .ok p.1) →
        (hd.offsets = true → ∃ raw, encodeOffsets (Spec.positions ((baseFile hd sec chs).impl E).function
          ((baseFile hd sec chs).front E).length (chs.map (·.1))) = .ok raw) → fp.data = (packedFile E hd sec chs).bytes E → fp.pos ≠ 0 →
        ∃ (fp' : FP) (F : File μ) (n c l : Int), some fp = some fp' ∧ fp'.data = F.bytes E ∧ F.Conforming E ∧ F.junk = [] ∧
          F.data = data ∧ F.metadata = md ∧ SecFor E md m F.sec m' ∧ calculateNchunks data.length cs = .ok (n, c, l) ∧
          packHeader n c l md a b = .ok F.header ∧ (∀ p ∈ F.chunks, E.compress p.2 a = .ok p.1) ∧ fp'.pos ≠ 0 := by
      intro sec chs hs hb hi hc ho hdata hpos
      refine ⟨fp, packedFile E hd sec chs, n, c, l, rfl, hdata, ?_, rfl, ?_, hs.metadata_eq rfl, hs, h0, h1, hc, hpos⟩
      · refine packedFile_conforming L g1 g2 hs.valid (by rw [g4, hs.isSome]) hb ?_ hc hi
          (by rw [g7]; exact h5) (by rw [g8]; exact h6) (by rw [g7, g8, g9]; exact h9) ho
        rw [g9]
        have := congrArg List.length hi
        simp at this
        omega
      · show (chs.map (·.2)).flatten = data
        rw [hi, h7]
    cases h3 with
    | plain sec _ hs hb chs hi hc ho _ hfp =>
      refine key sec chs hs hb hi hc (by rw [ho]; intro hx; cases hx) ?_ ?_
      · rw [hfp, wrote_base_data hs.valid, baseFile_eq_packedFile ho]
      · have : fp.pos = fp.data.length := by rw [hfp]; simp [wrote]
        rw [this, hfp, wrote_base_data hs.valid]
        have h32 : (baseFile hd sec chs).header.bytes.length = 32 := hd.bytes_length
        unfold File.bytes File.front
        rw [List.length_append, List.length_append, h32]
        omega
    | full sec _ hs hb chs hi hc ho raw he _ hdd hl hp => exact key sec chs hs hb hi hc (fun _ => ⟨raw, he⟩) hdd (by omega)

end Bloscpack
