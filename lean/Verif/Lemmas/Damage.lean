import Verif.Lemmas.Locate
/-
What unpacking does with damaged input.
-/
namespace Bloscpack
variable {μ : Type}

/-! ### one round of the loop, on any input -/

theorem unpackLoop_short {E : Env μ} {h : BloscpackHeader} {impl : Hash} (A R : Bytes) (l) (t : FP) (fuel i : Nat)
    (h16 : R.length < 16) :
    ∃ e s, unpackLoop (compressedFPSource h impl) (plainFPSinkPut E) (fuel + 1) i (Z A R l, t) = (.error e, (s, t)) := by
  obtain ⟨e, s, hr⟩ := readChunk_short impl A R l h16
  refine ⟨e, s, ?_⟩
  have hn : (compressedFPSource h impl).next i (Z A R l) = (.error e, s) := by
    show (readCompressedChunk impl >>= fun r => Proc.pure (r.1, r.2.2)) _ = _
    rw [Proc.bind_of_error hr]
  show (Proc.onFst ((compressedFPSource h impl).next i) >>= _) _ = _
  rw [Proc.bind_of_error (s' := (s, t)) (e := e) (by rw [Proc.onFst_apply, hn])]

/-- the general round: what is read, and the three things that can happen then -/
theorem unpackLoop_round {E : Env μ} {h : BloscpackHeader} {impl : Hash} (A R : Bytes) (l) (O : Bytes) (lo)
    (fuel i : Nat) (h16 : 16 ≤ R.length) (c dg rest : Bytes) (hc : c = R.take (leDecode (slice R 12 16)))
    (hdg : dg = (R.drop (leDecode (slice R 12 16))).take impl.size)
    (hrest : rest = (R.drop (leDecode (slice R 12 16))).drop impl.size) :
    (dg ≠ [] ∧ dg ≠ impl.function c →
      unpackLoop (compressedFPSource h impl) (plainFPSinkPut E) (fuel + 1) i (Z A R l, Z O [] lo) =
        (.error .checksumMismatch, (Z (A ++ c ++ dg) rest l, Z O [] lo))) ∧
    (¬ (dg ≠ [] ∧ dg ≠ impl.function c) →
      (∀ e, E.decompress c = .error e →
        unpackLoop (compressedFPSource h impl) (plainFPSinkPut E) (fuel + 1) i (Z A R l, Z O [] lo) =
          (.error e, (Z (A ++ c ++ dg) rest l, Z O [] lo))) ∧
      (∀ d, E.decompress c = .ok d →
        unpackLoop (compressedFPSource h impl) (plainFPSinkPut E) (fuel + 1) i (Z A R l, Z O [] lo) =
        unpackLoop (compressedFPSource h impl) (plainFPSinkPut E) fuel (i + 1)
          (Z (A ++ c ++ dg) rest l, Z (O ++ d) [] (lo ++ [(O.length, d)])))) := by
  obtain ⟨bh, -, -, hr⟩ := readChunk_general impl A R l h16
  obtain ⟨dgo, hn, hdgo⟩ : ∃ dgo, (compressedFPSource h impl).next i (Z A R l) = (.ok (c, dgo), Z (A ++ c ++ dg) rest l) ∧
      (dgo = some dg ∨ dgo = none ∧ dg = []) := by
    by_cases hsz : impl.size > 0
    · refine ⟨some dg, ?_, .inl rfl⟩
      show (readCompressedChunk impl >>= fun r => Proc.pure (r.1, r.2.2)) _ = _
      simp only [if_pos hsz, ← hc, ← hdg, ← hrest] at hr
      rw [Proc.bind_of_ok hr]; rfl
    · have h0 : impl.size = 0 := by omega
      rw [h0, List.take_zero] at hdg
      rw [h0, List.drop_zero] at hrest
      subst hdg
      refine ⟨none, ?_, .inr ⟨rfl, rfl⟩⟩
      show (readCompressedChunk impl >>= fun r => Proc.pure (r.1, r.2.2)) _ = _
      simp only [if_neg hsz, ← hc, ← hrest] at hr
      rw [Proc.bind_of_ok hr, List.append_nil]; rfl
  have hchk : ∀ b : Except Err Unit, checkDigest impl c dgo = b → b = if dg ≠ [] ∧ dg ≠ impl.function c then .error .checksumMismatch else .ok () := by
    rintro b rfl
    rcases hdgo with rfl | ⟨rfl, h⟩
    · rfl
    · rw [if_neg (by simp [h])]; rfl
  have hchk := hchk _ rfl
  have hstart : ∀ Q, unpackLoop (compressedFPSource h impl) (plainFPSinkPut E) (fuel + 1) i (Z A R l, Z O [] lo) = Q ↔
      (Proc.ofExcept (checkDigest impl c dgo) >>= fun _ => Proc.onSnd (plainFPSinkPut E c) >>= fun _ =>
        unpackLoop (compressedFPSource h impl) (plainFPSinkPut E) fuel (i + 1)) (Z (A ++ c ++ dg) rest l, Z O [] lo) = Q := by
    intro Q
    show (Proc.onFst ((compressedFPSource h impl).next i) >>= _) _ = _ ↔ _
    rw [Proc.bind_of_ok (a := (c, dgo)) (s' := (Z (A ++ c ++ dg) rest l, Z O [] lo))
      (by rw [Proc.onFst_apply, hn])]
    exact Iff.rfl
  refine ⟨fun hbad => ?_, fun hgood => ⟨fun e he => ?_, fun d hd => ?_⟩⟩
  · rw [hstart, Proc.bind_of_error (Proc.ofExcept_apply _ _ |>.trans (by rw [hchk, if_pos hbad]))]
  · rw [hstart, Proc.bind_of_ok (Proc.ofExcept_apply _ _ |>.trans (by rw [hchk, if_neg hgood]))]
    have hp : plainFPSinkPut E c (Z O [] lo) = (.error e, Z O [] lo) := by
      unfold plainFPSinkPut
      rw [Proc.bind_of_error (Proc.ofExcept_apply _ _ |>.trans (by rw [he]))]
    rw [Proc.bind_of_error (s' := (Z (A ++ c ++ dg) rest l, Z O [] lo)) (e := e) (by rw [Proc.onSnd_apply, hp])]
  · rw [hstart, Proc.bind_of_ok (Proc.ofExcept_apply _ _ |>.trans (by rw [hchk, if_neg hgood]))]
    have hp : plainFPSinkPut E c (Z O [] lo) = (.ok (), Z (O ++ d) [] (lo ++ [(O.length, d)])) := by
      unfold plainFPSinkPut
      rw [Proc.bind_of_ok (Proc.ofExcept_apply _ _ |>.trans (by rw [hd])), fpWrite_Z]
      simp
    rw [Proc.bind_of_ok (a := ()) (s' := (Z (A ++ c ++ dg) rest l, Z (O ++ d) [] (lo ++ [(O.length, d)])))
      (by rw [Proc.onSnd_apply, hp])]

/-! ### a readable beginning followed by anything -/

/-- unpacking a file whose first chunks are intact comes to what follows them with these chunks in the output -/
theorem unpackFrom_pre {E : Env μ} (L : E.Laws) {F : File μ} (hv : F.Pre E) :
    ∃ lo, unpackFrom E (F.bytes E) =
      (let r := unpackLoop (compressedFPSource F.header (F.impl E)) (plainFPSinkPut E)
        (F.header.nchunks.toNat - F.chunks.length) F.chunks.length
        (Z (F.front E ++ F.body E) F.junk [], Z F.data [] lo)
       (r.1.map (fun _ => F.metadata), r.2.2.data)) := by
  obtain ⟨os, h1, -⟩ := readBeginning_file L hv (F.body E ++ F.junk) []
  obtain ⟨hl1, hl2, -⟩ := File.lookup hv
  have hn : (compressedFPSource F.header (F.impl E)).nchunks.toNat =
      F.chunks.length + (F.header.nchunks.toNat - F.chunks.length) := by
    show F.header.nchunks.toNat = _
    have := hv.nchunks_le; omega
  obtain ⟨lo, h2⟩ := unpackLoop_records L (h := F.header) hl2 F.chunks hv.chunks_ok (F.front E) F.junk [] [] []
    (F.header.nchunks.toNat - F.chunks.length) 0
  refine ⟨lo, ?_⟩
  unfold unpackFrom unpackFP
  have hz : ({ data := F.bytes E } : FP) = Z [] (F.front E ++ (F.body E ++ F.junk)) [] := rfl
  rw [hz, h1]
  simp only [hl1]
  have ho : ({ data := [] } : FP) = Z [] [] [] := rfl
  unfold unpack
  rw [hn, ho]
  unfold File.body
  rw [h2]
  simp [File.data]

/-- the same when the next chunk cannot be read -/
theorem unpackFrom_stuck {E : Env μ} (L : E.Laws) {F : File μ} (hv : F.Pre E) (hn : (F.chunks.length : Int) < F.header.nchunks)
    (h16 : F.junk.length < 16) : ∃ e, unpackFrom E (F.bytes E) = (.error e, F.data) := by
  obtain ⟨lo, h1⟩ := unpackFrom_pre L hv
  obtain ⟨k, hk⟩ : ∃ k, F.header.nchunks.toNat - F.chunks.length = k + 1 := ⟨F.header.nchunks.toNat - F.chunks.length - 1, by omega⟩
  obtain ⟨e, s, h2⟩ := unpackLoop_short (E := E) (h := F.header) (impl := F.impl E) (F.front E ++ F.body E) F.junk []
    (Z F.data [] lo) k F.chunks.length h16
  refine ⟨e, ?_⟩
  rw [h1, hk, h2]
  simp [Except.map]

/-- the same when the next chunk fails its checksum -/
theorem unpackFrom_mismatch {E : Env μ} (L : E.Laws) {F : File μ} (hv : F.Pre E) (hn : (F.chunks.length : Int) < F.header.nchunks)
    (c dg rest : Bytes) (hj : F.junk = c ++ dg ++ rest) (h16 : 16 ≤ c.length) (hlen : leDecode (slice c 12 16) = c.length)
    (hdg : dg.length ≤ (F.impl E).size) (hshort : dg.length < (F.impl E).size → rest = [])
    (hne : dg ≠ []) (hbad : dg ≠ (F.impl E).function c) :
    unpackFrom E (F.bytes E) = (.error .checksumMismatch, F.data) := by
  obtain ⟨lo, h1⟩ := unpackFrom_pre L hv
  obtain ⟨k, hk⟩ : ∃ k, F.header.nchunks.toNat - F.chunks.length = k + 1 := ⟨F.header.nchunks.toNat - F.chunks.length - 1, by omega⟩
  have hs : leDecode (slice F.junk 12 16) = c.length := by
    rw [hj, List.append_assoc, slice_append_left _ _ _ _ h16, hlen]
  have e1 : c = F.junk.take (leDecode (slice F.junk 12 16)) := by rw [hs, hj]; simp
  have e2 : dg = (F.junk.drop (leDecode (slice F.junk 12 16))).take (F.impl E).size := by
    rw [hs, hj, List.append_assoc, List.drop_left]
    by_cases hx : dg.length < (F.impl E).size
    · rw [hshort hx, List.append_nil, List.take_of_length_le (by omega)]
    · rw [List.take_append_of_le_length (by omega), List.take_of_length_le (by omega)]
  have h2 := (unpackLoop_round (E := E) (h := F.header) (impl := F.impl E) (F.front E ++ F.body E) F.junk []
    F.data lo k F.chunks.length (by rw [hj]; simp; omega) c dg _ e1 e2 rfl).1 ⟨hne, hbad⟩
  rw [h1, hk, h2]
  simp [Except.map]

/-- the same when the next chunk was cut -/
theorem unpackFrom_cut {E : Env μ} (L : E.Laws) {F : File μ} (hv : F.Pre E) (hn : (F.chunks.length : Int) < F.header.nchunks)
    (h16 : 16 ≤ F.junk.length) (hlen : F.junk.length < leDecode (slice F.junk 12 16)) :
    ∃ e, unpackFrom E (F.bytes E) = (.error e, F.data) := by
  obtain ⟨lo, h1⟩ := unpackFrom_pre L hv
  obtain ⟨k, hk⟩ : ∃ k, F.header.nchunks.toNat - F.chunks.length = k + 1 := ⟨F.header.nchunks.toNat - F.chunks.length - 1, by omega⟩
  have hdrop : F.junk.drop (leDecode (slice F.junk 12 16)) = [] := List.drop_of_length_le (by omega)
  have h2 := (unpackLoop_round (E := E) (h := F.header) (impl := F.impl E) (F.front E ++ F.body E) F.junk []
    F.data lo k F.chunks.length h16 F.junk [] [] (by rw [List.take_of_length_le (by omega)])
    (by rw [hdrop, List.take_nil]) (by rw [hdrop, List.drop_nil])).2 (by simp)
  cases hd : E.decompress F.junk with
  | ok d =>
    have := L.decompress_length _ _ hd
    omega
  | error e =>
    refine ⟨e, ?_⟩
    rw [h1, hk, h2.1 e hd]
    simp [Except.map]

/-! ### positions while reading -/

theorem fpRead_pos {n : Nat} {fp fp' : FP} {b : Bytes} (h : fpRead n fp = (.ok b, fp')) :
    fp'.data = fp.data ∧ fp.pos ≤ fp'.pos ∧ (fp.pos + n ≤ fp'.pos ∨ fp.data.length ≤ fp'.pos) := by
  have : ¬ ((n : Int) < 0) := by omega
  simp [fpRead_eq, FP.read, this] at h
  obtain ⟨-, rfl⟩ := h
  simp
  omega

theorem fpRead_pos_int {n : Int} (hn : 0 ≤ n) {fp fp' : FP} {b : Bytes} (h : fpRead n fp = (.ok b, fp')) :
    fp'.data = fp.data ∧ fp.pos ≤ fp'.pos ∧ ((fp.pos : Int) + n ≤ fp'.pos ∨ fp.data.length ≤ fp'.pos) := by
  obtain ⟨k, rfl⟩ := Int.eq_ofNat_of_zero_le hn
  have := fpRead_pos h
  refine ⟨this.1, this.2.1, ?_⟩
  show (fp.pos : Int) + (k : Int) ≤ _ ∨ _
  omega

theorem fpSeekRel_pos {n : Int} {fp fp' : FP} {u : Unit} (h : fpSeekRel n fp = (.ok u, fp')) :
    fp'.data = fp.data ∧ fp.pos + n ≤ (fp'.pos : Int) := by
  rw [fpSeekRel_eq] at h; unfold FP.seekRel at h
  split at h
  · rename_i h'
    split at h' <;> cases h'
    cases h
    exact ⟨rfl, by simp; omega⟩
  · cases h

/-- reading metadata from a cut section fails or ends at the end of the file -/
theorem readMetadata_cut {E : Env μ} (L : E.Laws) {s : Section μ} (hv : s.Valid E) (A : Bytes) (k : Nat) (l)
    (hk : k < (s.bytes E).length) (r : Option μ × MetadataHeader) (fp' : FP)
    (h : readMetadata E (Z A ((s.bytes E).take k) l) = (.ok r, fp')) :
    fp'.data = A ++ (s.bytes E).take k ∧ fp'.data.length ≤ fp'.pos := by
  have hlen := Section.bytes_length L hv
  have hfits := hv.fits
  have hsize := hv.size
  have h32 : (slice (s.bytes E) 0 32) = s.header.bytes := by
    rw [Section.bytes, slice_append_left _ _ _ _ (by rw [MetadataHeader.bytes_length]; omega),
      slice_all _ _ (by rw [MetadataHeader.bytes_length]; omega)]
  unfold readMetadata at h
  rw [Proc.bind_ok_iff] at h
  obtain ⟨raw, f1, h1, h⟩ := h
  rw [Proc.bind_ok_iff] at h
  obtain ⟨hd, f2, h2, h⟩ := h
  simp only [Proc.ofExcept_apply, Prod.mk.injEq] at h2
  obtain ⟨h2, rfl⟩ := h2
  have p1 := fpRead_pos h1
  -- the header was read completely
  have hraw : raw = ((s.bytes E).take k).take 32 := by
    have : fpRead METADATA_HEADER_LENGTH (Z A ((s.bytes E).take k) l) = _ := fpRead_Z A _ l 32
    rw [this] at h1
    simp only [Prod.mk.injEq, Except.ok.injEq] at h1
    exact h1.1.symm
  have hk32 : 32 ≤ k := by
    have := (MetadataHeader.decode_ok h2).2
    rw [hraw] at this
    simp at this
    omega
  have hhd : hd = s.header := by
    have e : raw = s.header.bytes := by
      rw [hraw, List.take_take, Nat.min_eq_left hk32, take_eq_slice, h32]
    rw [e, Section.decode_header hv] at h2
    cases h2; rfl
  subst hhd
  rw [Proc.bind_ok_iff] at h
  obtain ⟨body, f3, h3, h⟩ := h
  have p3 := fpRead_pos_int (by omega) h3
  rw [Proc.bind_ok_iff] at h
  obtain ⟨_, f4, h4, h⟩ := h
  have p4 := fpSeekRel_pos h4
  obtain ⟨hl1, hl2, hl3⟩ := Section.lookup hv
  have hdl : (Z A ((s.bytes E).take k) l).data.length = A.length + k := by simp; omega
  have hdd : (Z A ((s.bytes E).take k) l).data = A ++ (s.bytes E).take k := rfl
  have hpp : (Z A ((s.bytes E).take k) l).pos = A.length := rfl
  have hM : (METADATA_HEADER_LENGTH : Nat) = 32 := rfl
  split at h
  · rename_i hn
    rw [Proc.bind_ok_iff] at h
    obtain ⟨impl, f5, h5, h⟩ := h
    rw [hl1] at h5
    simp only [Proc.ofExcept_apply, Prod.mk.injEq, Except.ok.injEq] at h5
    obtain ⟨rfl, rfl⟩ := h5
    rw [Proc.bind_ok_iff] at h
    obtain ⟨ex, f6, h6, h⟩ := h
    have p6 := fpRead_pos h6
    rw [Proc.bind_ok_iff] at h
    obtain ⟨_, f7, h7, h⟩ := h
    have e7 : f7 = f6 := by
      by_cases hb : (s.impl E).function body ≠ ex
      · rw [Proc.raiseIf_pos hb] at h7; cases h7
      · rw [Proc.raiseIf_neg hb] at h7; cases h7; rfl
    rw [Proc.bind_ok_iff] at h
    obtain ⟨m, f8, h8, h⟩ := h
    simp only [Proc.ofExcept_apply, Prod.mk.injEq] at h8
    simp only [Proc.pure_apply, Prod.mk.injEq] at h
    obtain ⟨-, rfl⟩ := h8
    obtain ⟨-, rfl⟩ := h
    subst e7
    refine ⟨by rw [p6.1, p4.1, p3.1, p1.1, hdd], ?_⟩
    have q1 := congrArg List.length p6.1
    have q2 := congrArg List.length p4.1
    have q3 := congrArg List.length p3.1
    have q4 := congrArg List.length p1.1
    omega
  · rename_i hn
    rw [Proc.bind_ok_iff] at h
    obtain ⟨m, f8, h8, h⟩ := h
    simp only [Proc.ofExcept_apply, Prod.mk.injEq] at h8
    simp only [Proc.pure_apply, Prod.mk.injEq] at h
    obtain ⟨-, rfl⟩ := h8
    obtain ⟨-, rfl⟩ := h
    have hz : (s.impl E).size = 0 := by rw [Hash.size_zero hl2, hl3]; exact Decidable.not_not.1 hn
    refine ⟨by rw [p4.1, p3.1, p1.1, hdd], ?_⟩
    have q2 := congrArg List.length p4.1
    have q3 := congrArg List.length p3.1
    have q4 := congrArg List.length p1.1
    omega

/-- at the end of the file no chunk can be read -/
theorem readChunk_exhausted (impl : Hash) (fp : FP) (h : fp.data.length ≤ fp.pos) :
    ∃ e s, readCompressedChunk impl fp = (.error e, s) := by
  obtain ⟨e, he⟩ := decodeBloscHeader_short (b := []) (by simp)
  have hr : fpRead BLOSC_HEADER_LENGTH fp = (.ok [], fp) := by
    have hd : fp.data.drop fp.pos = [] := List.drop_of_length_le h
    have : ¬ ((BLOSC_HEADER_LENGTH : Int) < 0) := by decide
    rw [fpRead_eq]; unfold FP.read
    simp only [hd, this, if_false, List.take_nil, List.length_nil, Nat.add_zero]
  refine ⟨e, fp, ?_⟩
  unfold readCompressedChunk
  rw [Proc.bind_of_ok hr, Proc.bind_of_error (Proc.ofExcept_apply _ _ |>.trans (by rw [he]))]

theorem unpackLoop_exhausted {E : Env μ} {h : BloscpackHeader} {impl : Hash} (fp t : FP) (fuel i : Nat)
    (hx : fp.data.length ≤ fp.pos) :
    ∃ e s, unpackLoop (compressedFPSource h impl) (plainFPSinkPut E) (fuel + 1) i (fp, t) = (.error e, (s, t)) := by
  obtain ⟨e, s, hr⟩ := readChunk_exhausted impl fp hx
  refine ⟨e, s, ?_⟩
  have hn : (compressedFPSource h impl).next i fp = (.error e, s) := by
    show (readCompressedChunk impl >>= fun r => Proc.pure (r.1, r.2.2)) _ = _
    rw [Proc.bind_of_error hr]
  show (Proc.onFst ((compressedFPSource h impl).next i) >>= _) _ = _
  rw [Proc.bind_of_error (s' := (s, t)) (e := e) (by rw [Proc.onFst_apply, hn])]

theorem readOffsets_pos {h : BloscpackHeader} (hn : 0 ≤ h.nchunks) (hm : 0 ≤ h.max_app_chunks) {fp fp' : FP} {os : List Int}
    (hr : readOffsets h fp = (.ok os, fp')) :
    fp'.data = fp.data ∧ fp.pos ≤ fp'.pos ∧ (fp.pos + offsetsLen h ≤ fp'.pos ∨ fp.data.length ≤ fp'.pos) := by
  unfold readOffsets at hr
  unfold offsetsLen
  cases ho : h.offsets with
  | false =>
    rw [ho] at hr
    simp at hr
    obtain ⟨-, rfl⟩ := hr
    simp
  | true =>
    rw [ho] at hr
    have ht : h.totalProspectiveChunks = some (h.nchunks + h.max_app_chunks) := if_pos hn
    simp only [if_true, ht] at hr ⊢
    rw [Proc.bind_ok_iff] at hr
    obtain ⟨u, f0, h0, hr⟩ := hr
    obtain rfl : fp = f0 := by
      unfold Proc.raiseIf at h0
      split at h0
      · cases h0
      · exact congrArg Prod.snd h0
    rw [Proc.bind_ok_iff] at hr
    obtain ⟨raw, f1, h1, h2⟩ := hr
    simp only [Proc.ofExcept_apply, Prod.mk.injEq] at h2
    obtain ⟨-, rfl⟩ := h2
    have := fpRead_pos_int (by omega) h1
    refine ⟨this.1, this.2.1, ?_⟩
    omega

/-- a file cut before its first chunk is not accepted -/
theorem unpackFrom_front_cut {E : Env μ} (L : E.Laws) {F : File μ} (hv : F.Pre E) (hn : 1 ≤ F.header.nchunks) (k : Nat)
    (hk : k < (F.front E).length) : ∃ e, unpackFrom E ((F.front E).take k) = (.error e, []) := by
  unfold unpackFrom unpackFP
  have hz : ({ data := (F.front E).take k } : FP) = Z [] ((F.front E).take k) [] := rfl
  rw [hz]
  generalize hq : readBeginning E (Z [] ((F.front E).take k) []) = q
  obtain ⟨r, fp⟩ := q
  cases r with
  | error e => exact ⟨e, rfl⟩
  | ok r =>
    obtain ⟨h, md, mh, os⟩ := r
    -- the header was complete
    have hb := F.header.bytes_length
    have hm : 0 ≤ F.header.max_app_chunks := hv.ok.2.2.2.2.2.2.1.1
    have key : h = F.header ∧ fp.data.length ≤ fp.pos := by
      unfold readBeginning at hq
      rw [Proc.bind_ok_iff] at hq
      obtain ⟨h', f1, h1, hq⟩ := hq
      rw [Proc.bind_ok_iff] at hq
      obtain ⟨⟨mm1, mm2⟩, f2, h2, hq⟩ := hq
      rw [Proc.bind_ok_iff] at hq
      obtain ⟨os', f3, h3, hq⟩ := hq
      simp only [Proc.pure_apply, Prod.mk.injEq, Except.ok.injEq] at hq
      obtain ⟨⟨rfl, -, -, rfl⟩, rfl⟩ := hq
      have hk32 : 32 ≤ k := by
        unfold readBloscpackHeader at h1
        have hrd : fpRead BLOSCPACK_HEADER_LENGTH (Z [] ((F.front E).take k) []) = _ := fpRead_Z [] _ [] 32
        rw [Proc.bind_of_ok hrd, Proc.bind_ok_iff] at h1
        obtain ⟨h'', f, h1, -⟩ := h1
        simp only [Proc.ofExcept_apply, Prod.mk.injEq] at h1
        have := congrArg List.length ((BloscpackHeader.decode_iff _ _).1 h1.1).2
        rw [BloscpackHeader.bytes_length] at this
        simp at this
        omega
      have hsplit : (F.front E).take k = F.header.bytes ++ (F.secBytes E ++ F.offsets).take (k - 32) := by
        rw [File.front, List.take_append, List.take_of_length_le (by omega), hb]
      rw [hsplit, readHeader_ok hv.ok hv.version] at h1
      simp only [Prod.mk.injEq, Except.ok.injEq] at h1
      obtain ⟨rfl, rfl⟩ := h1
      refine ⟨rfl, ?_⟩
      have p3 := readOffsets_pos (by omega) hm h3
      have q3 := congrArg List.length p3.1
      have hol := hv.offsets_len
      rw [File.front, List.length_append, List.length_append] at hk
      have hflag := hv.meta_flag
      cases hs : F.sec with
      | none =>
        rw [hs] at hflag
        have hf : F.header.metadata = false := by simpa using hflag
        have hsb : F.secBytes E = [] := by simp [File.secBytes, hs]
        rw [hf] at h2
        simp only [Bool.false_eq_true, if_false, Proc.pure_apply, Prod.mk.injEq, Except.ok.injEq] at h2
        obtain ⟨-, rfl⟩ := h2
        rw [hsb] at hk p3 q3
        simp only [Z_data, Z_pos, List.length_append, List.length_nil, List.length_take, List.nil_append] at *
        omega
      | some s =>
        rw [hs] at hflag
        have hf : F.header.metadata = true := by simpa using hflag
        have hsb : F.secBytes E = s.bytes E := by simp [File.secBytes, hs]
        rw [hf] at h2
        simp only [if_true] at h2
        rw [Proc.bind_ok_iff] at h2
        obtain ⟨⟨a1, a2⟩, f, h2, h4⟩ := h2
        simp only [Proc.pure_apply, Prod.mk.injEq] at h4
        obtain ⟨-, rfl⟩ := h4
        rw [hsb] at hk h2
        by_cases hc : k - 32 < (s.bytes E).length
        · rw [List.take_append_of_le_length (by omega)] at h2
          have := readMetadata_cut L (hv.sec_ok s hs) ([] ++ F.header.bytes) (k - 32) [] hc _ _ h2
          omega
        · rw [List.take_append, List.take_of_length_le (by omega), readMetadata_section L (hv.sec_ok s hs)] at h2
          simp only [Prod.mk.injEq] at h2
          obtain ⟨-, rfl⟩ := h2
          simp only [Z_data, Z_pos, List.length_append, List.length_nil, List.length_take, List.nil_append] at *
          omega
    obtain ⟨rfl, hx⟩ := key
    simp only [(File.lookup hv).1]
    obtain ⟨j, hj⟩ : ∃ j, F.header.nchunks.toNat = j + 1 := ⟨F.header.nchunks.toNat - 1, by omega⟩
    obtain ⟨e, s, he⟩ := unpackLoop_exhausted (E := E) (h := F.header) (impl := F.impl E) fp { data := [] } j 0 hx
    refine ⟨e, ?_⟩
    unfold unpack
    have : (compressedFPSource F.header (F.impl E)).nchunks.toNat = j + 1 := hj
    rw [this, he]
    rfl

/-! ### cutting a file -/

/-- where the cut falls among the chunks -/
theorem records_cut (f : Bytes → Bytes) (chs : List (Bytes × Bytes)) (k : Nat)
    (hk : k < (Spec.records f (chs.map (·.1))).length) :
    ∃ pre p post part, chs = pre ++ p :: post ∧ (Spec.records f (chs.map (·.1))).take k = Spec.records f (pre.map (·.1)) ++ part ∧
      part.length < (p.1 ++ f p.1).length ∧ part = (p.1 ++ f p.1).take part.length ∧
      k = (Spec.records f (pre.map (·.1))).length + part.length := by
  induction chs generalizing k with
  | nil => simp at hk
  | cons q qs ih =>
    rw [List.map_cons, records_cons] at hk ⊢
    by_cases hc : k < (q.1 ++ f q.1).length
    · refine ⟨[], q, qs, (q.1 ++ f q.1).take k, rfl, ?_, ?_, ?_, ?_⟩
      · rw [List.take_append_of_le_length (by omega)]; rfl
      · rw [List.length_take]; omega
      · rw [List.length_take, Nat.min_eq_left (by omega)]
      · rw [List.length_take]; simp only [List.map_nil, records_nil, List.length_nil]; omega
    · obtain ⟨pre, p, post, part, h1, h2, h3, h4, h5⟩ := ih (k - (q.1 ++ f q.1).length)
        (by rw [List.length_append] at hk; omega)
      refine ⟨q :: pre, p, post, part, by rw [h1]; rfl, ?_, h3, h4, ?_⟩
      · rw [List.take_append, List.take_of_length_le (by omega), h2, List.map_cons, records_cons]
        simp only [List.append_assoc]
      · rw [List.map_cons, records_cons, List.length_append]; omega

/-- what unpacking a cut file does: an error, with whole leading chunks in the output, unless exactly the digest of the
last chunk was cut off -/
theorem unpackFrom_truncated {E : Env μ} (L : E.Laws) {F : File μ} (hv : F.Valid E) (hj : F.junk = [])
    (hn : 1 ≤ F.header.nchunks) (k : Nat) (hk : k < (F.bytes E).length) :
    (k + (F.impl E).size ≠ (F.bytes E).length →
      ∃ e i, i < F.chunks.length + 1 ∧ unpackFrom E ((F.bytes E).take k) = (.error e, ((F.chunks.take i).map (·.2)).flatten)) ∧
    (k + (F.impl E).size = (F.bytes E).length → unpackFrom E ((F.bytes E).take k) = (.ok F.metadata, F.data)) := by
  obtain ⟨-, hl2, -⟩ := File.lookup hv.toPre
  have hbytes : F.bytes E = F.front E ++ F.body E := by simp [File.bytes, hj]
  by_cases hf : k < (F.front E).length
  · -- cut in front of the chunks
    have h1 : (F.bytes E).take k = (F.front E).take k := by rw [hbytes, List.take_append_of_le_length (by omega)]
    obtain ⟨e, he⟩ := unpackFrom_front_cut L hv.toPre hn k hf
    rw [h1, he]
    refine ⟨fun _ => ⟨e, 0, by omega, by simp⟩, fun hx => ?_⟩
    -- at least one chunk follows, so more than a digest is missing
    exfalso
    rcases hch : F.chunks with _ | ⟨p, ps⟩
    · have := hv.nchunks; rw [hch] at this; simp at this; omega
    · have hfr := framed_of_decompress L (hv.chunks_ok p (by rw [hch]; exact List.mem_cons_self))
      have hsz := Hash.size_eq L hl2 p.1
      rw [hbytes, List.length_append, File.body, hch, List.map_cons, records_cons] at hx
      simp only [List.length_append] at hx
      have := hfr.1
      omega
  · -- cut among the chunks
    rw [hbytes, List.length_append] at hk
    have h1 : (F.bytes E).take k = F.front E ++ (F.body E).take (k - (F.front E).length) := by
      rw [hbytes, List.take_append, List.take_of_length_le (by omega)]
    obtain ⟨pre, p, post, part, c1, c2, c3, c4, c5⟩ := records_cut (F.impl E).function F.chunks (k - (F.front E).length)
      (by unfold File.body at hk; omega)
    let G : File μ := { F with chunks := pre, junk := part }
    have hGb : G.bytes E = (F.bytes E).take k := by
      rw [h1]; show F.front E ++ (Spec.records (F.impl E).function (pre.map (·.1)) ++ part) = _
      rw [File.body, c2]
    have hGp : G.Pre E := { hv.toPre with
      nchunks_le := by
        show (pre.length : Int) ≤ F.header.nchunks
        rw [hv.nchunks, c1]; simp; omega
      chunks_ok := fun q hq => hv.chunks_ok q (by rw [c1]; exact List.mem_append_left _ hq) }
    have hGn : (G.chunks.length : Int) < G.header.nchunks := by
      show (pre.length : Int) < F.header.nchunks
      rw [hv.nchunks, c1]; simp; omega
    have hGd : G.data = ((F.chunks.take pre.length).map (·.2)).flatten := by
      rw [c1, List.take_left]; rfl
    have hi : pre.length < F.chunks.length + 1 := by rw [c1]; simp; omega
    have hp := hv.chunks_ok p (by rw [c1]; simp)
    obtain ⟨hp16, hplen⟩ := framed_of_decompress L hp
    have hsz := Hash.size_eq L hl2 p.1
    have hGi : G.impl E = F.impl E := rfl
    have hlenB : (F.bytes E).length = (F.front E).length + ((Spec.records (F.impl E).function (pre.map (·.1))).length +
        (p.1.length + (F.impl E).size + (Spec.records (F.impl E).function (post.map (·.1))).length)) := by
      rw [hbytes, List.length_append, File.body, c1, List.map_append, List.map_cons, records_append, records_cons]
      simp only [List.length_append, hsz]
    have hkk : k = (F.front E).length + (Spec.records (F.impl E).function (pre.map (·.1))).length + part.length := by omega
    rw [List.length_append, hsz] at c3
    rw [← hGb]
    have hpartpre : ∀ n, n ≤ p.1.length → n ≤ part.length → part.take n = p.1.take n := by
      intro n h1 h2
      rw [c4, List.take_take, Nat.min_eq_left h2, List.take_append_of_le_length h1]
    have hslice : 16 ≤ part.length → slice part 12 16 = slice p.1 12 16 := by
      intro h
      have e1 : slice (part.take 16) 12 16 = slice part 12 16 := by
        conv => rhs; rw [← List.take_append_drop 16 part]
        rw [slice_append_left]; simp; omega
      have e2 : slice (p.1.take 16) 12 16 = slice p.1 12 16 := by
        conv => rhs; rw [← List.take_append_drop 16 p.1]
        rw [slice_append_left]; simp; omega
      rw [← e1, ← e2, hpartpre 16 hp16 h]
    by_cases hs16 : part.length < 16
    · obtain ⟨e, he⟩ := unpackFrom_stuck L hGp hGn hs16
      rw [he, hGd]
      exact ⟨fun _ => ⟨e, _, hi, rfl⟩, fun hx => by omega⟩
    by_cases hcut : part.length < p.1.length
    · have hlt : G.junk.length < leDecode (slice G.junk 12 16) := by
        show part.length < leDecode (slice part 12 16)
        rw [hslice (by omega), hplen]; exact hcut
      obtain ⟨e, he⟩ := unpackFrom_cut L hGp hGn (by show 16 ≤ part.length; omega) hlt
      rw [he, hGd]
      exact ⟨fun _ => ⟨e, _, hi, rfl⟩, fun hx => by omega⟩
    -- the chunk is complete, its digest is not
    have hpart : part = p.1 ++ ((F.impl E).function p.1).take (part.length - p.1.length) := by
      rw [c4, List.length_take, List.length_append, hsz, Nat.min_eq_left (by omega), List.take_append,
        List.take_of_length_le (by omega)]
    by_cases hz : part.length = p.1.length
    · -- no digest at all: the chunk is accepted
      have hpp : part = p.1 := by rw [hpart, hz]; simp
      have hGj : G.junk = p.1 := hpp
      obtain ⟨lo, hG⟩ := unpackFrom_pre L hGp
      obtain ⟨j, hjj⟩ : ∃ j, G.header.nchunks.toNat - G.chunks.length = j + 1 :=
        ⟨G.header.nchunks.toNat - G.chunks.length - 1, by omega⟩
      have hround := (unpackLoop_round (E := E) (h := G.header) (impl := G.impl E) (G.front E ++ G.body E) G.junk []
        G.data lo j G.chunks.length (by show 16 ≤ part.length; omega) p.1 [] []
        (by rw [hGj, hplen, List.take_length])
        (by rw [hGj, hplen, List.drop_length, List.take_nil])
        (by rw [hGj, hplen, List.drop_length, List.drop_nil])).2 (by simp)
      rw [hG, hjj, hround.2 _ hp]
      have hjn : (j : Int) = post.length := by
        have e1 : G.header.nchunks = F.chunks.length := hv.nchunks
        have e2 : F.chunks.length = pre.length + (post.length + 1) := by rw [c1]; simp
        have e3 : G.chunks.length = pre.length := rfl
        omega
      have hdata : G.data ++ p.2 = ((F.chunks.take (pre.length + 1)).map (·.2)).flatten := by
        have : F.chunks = (pre ++ [p]) ++ post := by rw [c1]; simp
        rw [this, show pre.length + 1 = (pre ++ [p]).length by simp, List.take_left]
        show (pre.map (·.2)).flatten ++ p.2 = _
        simp
      cases post with
      | nil =>
        have : j = 0 := by simp at hjn; omega
        subst this
        refine ⟨fun hx => ?_, fun _ => ?_⟩
        · exfalso; simp at hlenB; omega
        · have hd2 : G.data ++ p.2 = F.data := by
            rw [hdata, show pre.length + 1 = F.chunks.length by rw [c1]; simp, List.take_length]; rfl
          simp [unpackLoop, Except.map, hd2]
          rfl
      | cons q qs =>
        obtain ⟨j', rfl⟩ : ∃ j', j = j' + 1 := ⟨j - 1, by simp at hjn; omega⟩
        obtain ⟨e, s, he⟩ := unpackLoop_short (E := E) (h := G.header) (impl := G.impl E) (G.front E ++ G.body E ++ p.1 ++ [])
          [] [] (Z (G.data ++ p.2) [] (lo ++ [(G.data.length, p.2)])) j' (G.chunks.length + 1) (by simp)
        rw [he]
        refine ⟨fun _ => ⟨e, pre.length + 1, by rw [c1]; simp, ?_⟩, fun hx => ?_⟩
        · simp only [Except.map, Z_data, List.append_nil, hdata]
        · exfalso
          have hq := framed_of_decompress L (hv.chunks_ok q (by rw [c1]; simp))
          rw [List.map_cons, records_cons, List.length_append, List.length_append] at hlenB
          have := hq.1
          omega
    · -- an incomplete digest
      have hlen2 : (((F.impl E).function p.1).take (part.length - p.1.length)).length = part.length - p.1.length := by
        rw [List.length_take, hsz]; omega
      have he := unpackFrom_mismatch L hGp hGn p.1 (((F.impl E).function p.1).take (part.length - p.1.length)) []
        (by rw [List.append_nil]; exact hpart) hp16 hplen (by rw [hGi, hlen2]; omega) (fun _ => rfl)
        (by intro hx; rw [hx] at hlen2; simp at hlen2; omega)
        (by intro hx; rw [hx] at hlen2; rw [hGi, hsz] at hlen2; omega)
      rw [he, hGd]
      refine ⟨fun _ => ⟨_, _, hi, rfl⟩, fun hx => ?_⟩
      cases post with
      | nil => simp at hlenB; omega
      | cons q qs =>
        have hq := Hash.size_eq L hl2 q.1
        rw [List.map_cons, records_cons, List.length_append, List.length_append] at hlenB
        omega

end Bloscpack
