import Verif.Lemmas.Growing
/-
Reading a file before its beginning is complete.
-/
namespace Bloscpack
variable {μ : Type}

theorem bytesFrom_le {v : Nat → Option UInt8} : ∀ {p n : Nat}, (bytesFrom v p n).length ≤ n
  | _, 0 => Nat.le_refl _
  | p, n + 1 => by
    unfold bytesFrom
    split
    · simp
    · have := bytesFrom_le (v := v) (p := p + 1) (n := n)
      rw [List.length_cons]; omega

/-- what one call of `read` finds of something that may not be there yet -/
theorem bytesFrom_early {v : Nat → Option UInt8} : ∀ {p : Nat} {bs : Bytes}, (∀ j, j < bs.length → v (p + j) = none ∨ v (p + j) = bs[j]?) →
    ∃ t, t ≤ bs.length ∧ bytesFrom v p bs.length = bs.take t
  | _, [], _ => ⟨0, Nat.le_refl _, rfl⟩
  | p, x :: bs, h => by
    rw [List.length_cons, bytesFrom]
    rcases h 0 (by simp) with h0 | h0
    · rw [Nat.add_zero] at h0
      exact ⟨0, by omega, by rw [h0]; rfl⟩
    · rw [Nat.add_zero] at h0
      obtain ⟨t, h1, h2⟩ := bytesFrom_early (v := v) (p := p + 1) (bs := bs) (fun j hj => by
        have := h (j + 1) (by simpa using hj)
        rwa [Nat.add_comm j 1, ← Nat.add_assoc, Nat.add_comm 1 j, List.getElem?_cons_succ] at this)
      refine ⟨t + 1, by omega, ?_⟩
      rw [h0]
      simp [h2]

section
variable {v : Nat → Nat → Option UInt8} {b k p : Nat}

theorem read_any (n : Int) (hn : 0 ≤ n) : ∃ bs : Bytes, bs.length ≤ n.toNat ∧ bs = bytesFrom (v k) p n.toNat ∧
    fpRead n (At v b k p) = (.ok bs, At v b (k + 1) (p + bs.length)) := by
  refine ⟨bytesFrom (v k) p n.toNat, bytesFrom_le, rfl, ?_⟩
  show Shared.read n _ = _
  unfold Shared.read
  simp only [show ¬ n < 0 by omega, if_false]

theorem read_early {bs : Bytes} (h : ∀ j, j < bs.length → v k (p + j) = none ∨ v k (p + j) = bs[j]?) (n : Int) (hn : n = bs.length) :
    ∃ t, t ≤ bs.length ∧ fpRead n (At v b k p) = (.ok (bs.take t), At v b (k + 1) (p + t)) := by
  obtain ⟨t, h1, h2⟩ := bytesFrom_early h
  refine ⟨t, h1, ?_⟩
  subst hn
  show Shared.read _ _ = _
  unfold Shared.read
  simp only [show ¬ ((bs.length : Int) < 0) by omega, if_false, Int.toNat_natCast, h2, List.length_take, Nat.min_eq_left h1]

/-- a round of the unpack loop that starts where nothing can be decompressed -/
theorem unpackLoop_wrong {E : Env μ} {h : BloscpackHeader} {impl : Hash} {O : Bytes} {lo}
    (hno : ∀ k n, ∃ e, E.decompress (bytesFrom (v k) p n) = .error e) (fuel i : Nat) :
    ∃ e, (unpackLoop (compressedFPSource h impl) (plainFPSinkPut E) (fuel + 1) i (At v b k p, Z O [] lo)).1 = .error e := by
  obtain ⟨x, x1, x2, x3⟩ := read_any (v := v) (b := b) (k := k) (p := p) (BLOSC_HEADER_LENGTH : Int) (by unfold BLOSC_HEADER_LENGTH; omega)
  have hread : ∀ (n : Int) (s : Shared), ∃ x s', fpRead n s = (.ok x, s') := fun n s => ⟨_, _, rfl⟩
  have x1 : x.length ≤ 16 := x1
  by_cases ht : x.length < 16
  · obtain ⟨e, he⟩ := decodeBloscHeader_short ht
    have hn : (compressedFPSource h impl).next i (At v b k p) = (.error e, At v b (k + 1) (p + x.length)) := by
      show (readCompressedChunk impl >>= fun r => Proc.pure (r.1, r.2.2)) _ = _
      refine Proc.bind_of_error ?_
      unfold readCompressedChunk
      rw [Proc.bind_of_ok x3, Proc.bind_of_error (Proc.ofExcept_apply _ _ |>.trans (by rw [he]))]
    refine ⟨e, ?_⟩
    show ((Proc.onFst ((compressedFPSource h impl).next i) >>= _) _).1 = _
    rw [Proc.bind_of_error (e := e) (s' := (At v b (k + 1) (p + x.length), Z O [] lo)) (by rw [Proc.onFst_apply, hn])]
  · have ht : x.length = 16 := by omega
    obtain ⟨bh, e1, e2⟩ := decodeBloscHeader_ctbytes (b := x) (by omega)
    have hseek : fpSeekRel (-(BLOSC_HEADER_LENGTH : Int)) (At v b (k + 1) (p + x.length)) = (.ok (), At v b (k + 1) p) :=
      seekRel_at _ p (by rw [ht]; unfold BLOSC_HEADER_LENGTH; omega)
    obtain ⟨y, -, y2, y3⟩ := read_any (v := v) (b := b) (k := k + 1) (p := p) bh.ctbytes (by rw [e2]; omega)
    obtain ⟨e, he⟩ := hno (k + 1) bh.ctbytes.toNat
    rw [← y2] at he
    have hn : ∃ dg s', (compressedFPSource h impl).next i (At v b k p) = (.ok (y, dg), s') := by
      obtain ⟨z, s', hz⟩ := hread impl.size (At v b (k + 1 + 1) (p + y.length))
      by_cases hsz : impl.size > 0
      · refine ⟨some z, s', ?_⟩
        show (readCompressedChunk impl >>= fun r => Proc.pure (r.1, r.2.2)) _ = _
        rw [Proc.bind_of_ok (a := (y, bh, some z)) (s' := s')]
        · rfl
        · unfold readCompressedChunk
          rw [Proc.bind_of_ok x3, Proc.bind_of_ok (Proc.ofExcept_apply _ _ |>.trans (by rw [e1])), Proc.bind_of_ok hseek,
            Proc.bind_of_ok y3]
          simp only [if_pos hsz]
          rw [Proc.bind_of_ok hz]
          rfl
      · refine ⟨none, At v b (k + 1 + 1) (p + y.length), ?_⟩
        show (readCompressedChunk impl >>= fun r => Proc.pure (r.1, r.2.2)) _ = _
        rw [Proc.bind_of_ok (a := (y, bh, none)) (s' := At v b (k + 1 + 1) (p + y.length))]
        · rfl
        · unfold readCompressedChunk
          rw [Proc.bind_of_ok x3, Proc.bind_of_ok (Proc.ofExcept_apply _ _ |>.trans (by rw [e1])), Proc.bind_of_ok hseek,
            Proc.bind_of_ok y3]
          simp only [if_neg hsz]
          rfl
    obtain ⟨dg, s', hn⟩ := hn
    have hstep : unpackLoop (compressedFPSource h impl) (plainFPSinkPut E) (fuel + 1) i (At v b k p, Z O [] lo) =
        (Proc.ofExcept (checkDigest impl y dg) >>= fun _ => Proc.onSnd (plainFPSinkPut E y) >>= fun _ =>
          unpackLoop (compressedFPSource h impl) (plainFPSinkPut E) fuel (i + 1)) (s', Z O [] lo) := by
      show (Proc.onFst ((compressedFPSource h impl).next i) >>= _) _ = _
      rw [Proc.bind_of_ok (a := (y, dg)) (s' := (s', Z O [] lo)) (by rw [Proc.onFst_apply, hn])]
      rfl
    rw [hstep]
    cases hcd : checkDigest impl y dg with
    | error e => exact ⟨e, by rw [Proc.bind_of_error (Proc.ofExcept_apply _ _)]⟩
    | ok _ =>
      rw [Proc.bind_of_ok (Proc.ofExcept_apply _ _)]
      have hp : plainFPSinkPut E y (Z O [] lo) = (.error e, Z O [] lo) := by
        unfold plainFPSinkPut
        rw [Proc.bind_of_error (Proc.ofExcept_apply _ _ |>.trans (by rw [he]))]
      exact ⟨e, by rw [Proc.bind_of_error (e := e) (s' := (s', Z O [] lo)) (by rw [Proc.onSnd_apply, hp])]⟩

theorem readHeader_early {h : BloscpackHeader} (hok : h.OK) (hv : h.format_version = 3)
    (hs : ∀ j, j < 32 → v k (p + j) = none ∨ v k (p + j) = h.bytes[j]?) :
    (∃ e, (readBloscpackHeader (At v b k p)).1 = .error e) ∨ readBloscpackHeader (At v b k p) = (.ok h, At v b (k + 1) (p + 32)) := by
  have hl := h.bytes_length
  obtain ⟨t, t1, t2⟩ := read_early (b := b) (k := k) (p := p) (bs := h.bytes) (by rw [hl]; exact hs) (BLOSCPACK_HEADER_LENGTH : Int)
    (by rw [hl]; rfl)
  unfold readBloscpackHeader
  rw [Proc.bind_of_ok t2]
  by_cases ht : t = 32
  · right
    subst ht
    rw [List.take_of_length_le (by omega), Proc.bind_of_ok (Proc.ofExcept_apply _ _ |>.trans (by rw [BloscpackHeader.decode_bytes hok])),
      Proc.bind_of_ok (Proc.raiseIf_neg (by simp [hv, FORMAT_VERSION]) _ _)]
    rfl
  · left
    cases hd : BloscpackHeader.decode (h.bytes.take t) with
    | error e => exact ⟨e, by rw [Proc.bind_of_error (Proc.ofExcept_apply _ _)]⟩
    | ok g =>
      have := congrArg List.length ((BloscpackHeader.decode_iff _ _).1 hd).2
      rw [List.length_take, hl, g.bytes_length] at this
      omega

theorem readMetadata_early {E : Env μ} (L : E.Laws) {s : Section μ} (hv : s.Valid E)
    (hs : ∀ k j, j < (s.bytes E).length → v k (p + j) = none ∨ v k (p + j) = (s.bytes E)[j]?)
    (hload : ∀ t, t < s.body.length → ∃ e, loadMetadata E s.header (s.body.take t) = .error e) :
    (∃ e, (readMetadata E (At v b k p)).1 = .error e) ∨
    ∃ k', readMetadata E (At v b k p) = (.ok (s.metadata, s.header), At v b k' (p + (s.bytes E).length)) := by
  obtain ⟨hl1, hl2, hl3⟩ := Section.lookup hv
  have h1 := hv.size
  have h2 := hv.fits
  have h3 := Hash.size_eq L hl2 s.body
  have hhl := s.header.bytes_length
  have hbl : (s.bytes E).length = 32 + s.body.length + s.prealloc + (s.impl E).size := by
    simp [Section.bytes, hhl, h3]; omega
  have a1 : ∀ k j, j < s.header.bytes.length → v k (p + j) = none ∨ v k (p + j) = s.header.bytes[j]? := by
    intro k j hj
    have := hs k j (by omega)
    rwa [Section.bytes, List.getElem?_append_left hj] at this
  have a2 : ∀ k j, j < s.body.length → v k (p + 32 + j) = none ∨ v k (p + 32 + j) = s.body[j]? := by
    intro k j hj
    have := hs k (32 + j) (by omega)
    rwa [Section.bytes, List.getElem?_append_right (by omega), hhl, Nat.add_sub_cancel_left, List.getElem?_append_left hj,
      ← Nat.add_assoc] at this
  have a3 : ∀ k j, j < ((s.impl E).function s.body).length → v k (p + 32 + s.body.length + s.prealloc + j) = none ∨
      v k (p + 32 + s.body.length + s.prealloc + j) = ((s.impl E).function s.body)[j]? := by
    intro k j hj
    have := hs k (32 + s.body.length + s.prealloc + j) (by omega)
    have e1 : (s.bytes E)[32 + s.body.length + s.prealloc + j]? = ((s.impl E).function s.body)[j]? := by
      rw [Section.bytes, List.getElem?_append_right (by omega), List.getElem?_append_right (by omega),
        List.getElem?_append_right (by simp; omega), List.length_replicate]
      congr 1
      omega
    rw [e1, show p + (32 + s.body.length + s.prealloc + j) = p + 32 + s.body.length + s.prealloc + j by omega] at this
    exact this
  unfold readMetadata
  obtain ⟨t, t1, t2⟩ := read_early (b := b) (k := k) (p := p) (a1 k) METADATA_HEADER_LENGTH (by rw [hhl]; rfl)
  rw [Proc.bind_of_ok t2]
  by_cases ht : t = 32
  · subst ht
    rw [List.take_of_length_le (by omega), Proc.bind_of_ok (Proc.ofExcept_apply _ _ |>.trans (by rw [Section.decode_header hv]))]
    obtain ⟨u, u1, u2⟩ := read_early (b := b) (k := k + 1) (a2 (k + 1)) s.header.meta_comp_size h1
    rw [Proc.bind_of_ok u2, Proc.bind_of_ok (seekRel_at _ (p + 32 + u + s.prealloc) (by unfold Section.prealloc; omega))]
    by_cases hu : u = s.body.length
    · subst hu
      rw [List.take_length]
      by_cases hn : s.header.meta_checksum ≠ "None"
      · rw [if_pos hn, Proc.bind_of_ok (Proc.ofExcept_apply _ _ |>.trans (by rw [hl1]))]
        obtain ⟨w, w1, w2⟩ := read_early (b := b) (k := k + 1 + 1) (a3 (k + 1 + 1)) (s.impl E).size (by rw [h3])
        rw [Proc.bind_of_ok w2]
        by_cases hw : w = (s.impl E).size
        · right
          rw [List.take_of_length_le (by omega), Proc.bind_of_ok (Proc.raiseIf_neg (by simp) _ _),
            Proc.bind_of_ok (Proc.ofExcept_apply _ _ |>.trans (by rw [Section.loads hv]))]
          refine ⟨k + 1 + 1 + 1, ?_⟩
          show (_, _) = _
          rw [hbl, hw]
          simp only [Nat.add_assoc]
        · left
          refine ⟨.checksumMismatch, ?_⟩
          have hne : (s.impl E).function s.body ≠ ((s.impl E).function s.body).take w := by
            intro h0
            have := congrArg List.length h0
            rw [List.length_take] at this
            omega
          rw [Proc.bind_of_error (Proc.raiseIf_pos hne _ _)]
      · right
        rw [if_neg hn, Proc.bind_of_ok (Proc.ofExcept_apply _ _ |>.trans (by rw [Section.loads hv]))]
        have hz : (s.impl E).size = 0 := by
          rw [Hash.size_zero hl2, hl3]
          exact Decidable.not_not.1 hn
        refine ⟨k + 1 + 1, ?_⟩
        show (_, _) = _
        rw [hbl, hz]
        simp only [Nat.add_zero, Nat.add_assoc]
    · left
      obtain ⟨e, he⟩ := hload u (by omega)
      by_cases hn : s.header.meta_checksum ≠ "None"
      · rw [if_pos hn, Proc.bind_of_ok (Proc.ofExcept_apply _ _ |>.trans (by rw [hl1]))]
        obtain ⟨x, -, -, x3⟩ := read_any (v := v) (b := b) (k := k + 1 + 1) (p := p + 32 + u + s.prealloc) (s.impl E).size (by omega)
        rw [Proc.bind_of_ok x3]
        by_cases hm : (s.impl E).function (s.body.take u) ≠ x
        · exact ⟨_, by rw [Proc.bind_of_error (Proc.raiseIf_pos hm _ _)]⟩
        · exact ⟨e, by rw [Proc.bind_of_ok (Proc.raiseIf_neg hm _ _), Proc.bind_of_error (Proc.ofExcept_apply _ _ |>.trans (by rw [he]))]⟩
      · exact ⟨e, by rw [if_neg hn, Proc.bind_of_error (Proc.ofExcept_apply _ _ |>.trans (by rw [he]))]⟩
  · left
    cases hd : MetadataHeader.decode (s.header.bytes.take t) with
    | error e => exact ⟨e, by rw [Proc.bind_of_error (Proc.ofExcept_apply _ _)]⟩
    | ok g =>
      have := (MetadataHeader.decode_ok hd).2
      rw [List.length_take, hhl] at this
      omega

/-- reading the offsets moves the reader to the end of as many as there are, which must be enough -/
theorem readOffsets_early {h : BloscpackHeader} (hn : 0 ≤ h.nchunks) (hm : 0 ≤ h.max_app_chunks) :
    (∃ e, (readOffsets h (At v b k p)).1 = .error e) ∨
    offsetsLen h < 2 ^ 63 ∧ ∃ k' os t, (h.offsets = true → 8 * h.nchunks.toNat ≤ t) ∧ t ≤ offsetsLen h ∧
      readOffsets h (At v b k p) = (.ok os, At v b k' (p + t)) := by
  unfold readOffsets offsetsLen
  cases ho : h.offsets with
  | false => exact .inr ⟨by simp, k, [], 0, by simp, by simp, rfl⟩
  | true =>
    simp only [if_true]
    have ht : h.totalProspectiveChunks = some (h.nchunks + h.max_app_chunks) := if_pos hn
    rw [ht]
    simp only
    by_cases hb : 8 * (h.nchunks + h.max_app_chunks) ≥ 2 ^ 63
    · left
      exact ⟨_, by rw [Proc.bind_of_error (Proc.raiseIf_pos hb _ _)]⟩
    rw [Proc.bind_of_ok (Proc.raiseIf_neg hb _ _)]
    obtain ⟨raw, r1, -, r3⟩ := read_any (v := v) (b := b) (k := k) (p := p) (8 * (h.nchunks + h.max_app_chunks)) (by omega)
    rw [Proc.bind_of_ok r3]
    by_cases hs : raw.length < 8 * h.nchunks.toNat
    · left
      obtain ⟨e, he⟩ := decodeOffsets_short _ raw hs
      exact ⟨e, by rw [Proc.ofExcept_apply, he]⟩
    · right
      obtain ⟨os, o1, -⟩ := decodeOffsets_ok h.nchunks.toNat raw (by omega)
      exact ⟨by omega, k + 1, os, raw.length, fun _ => by omega, by omega, by rw [Proc.ofExcept_apply, o1]⟩

/-- reading the beginning of a file that may not be there yet -/
theorem readBeginning_early {E : Env μ} (L : E.Laws) {F : File μ} (hok : F.header.OK) (hv : F.header.format_version = 3)
    (hflag : F.header.metadata = F.sec.isSome) (hsec : ∀ s, F.sec = some s → s.Valid E) (hn : 0 ≤ F.header.nchunks)
    (h0 : ∀ k j, j < 32 → v k j = none ∨ v k j = F.header.bytes[j]?)
    (h1 : ∀ k j, j < (F.secBytes E).length → v k (32 + j) = none ∨ v k (32 + j) = (F.secBytes E)[j]?)
    (hload : ∀ s, F.sec = some s → ∀ t, t < s.body.length → ∃ e, loadMetadata E s.header (s.body.take t) = .error e) :
    (∃ e, (readBeginning E (At v b 0 0)).1 = .error e) ∨
    offsetsLen F.header < 2 ^ 63 ∧ ∃ k' os t, (F.header.offsets = true → 8 * F.header.nchunks.toNat ≤ t) ∧ t ≤ offsetsLen F.header ∧
      readBeginning E (At v b 0 0) = (.ok (F.header, F.metadata, F.sec.map (·.header), os), At v b k' (32 + (F.secBytes E).length + t)) := by
  have hm : 0 ≤ F.header.max_app_chunks := hok.2.2.2.2.2.2.1.1
  unfold readBeginning
  rcases readHeader_early (b := b) (k := 0) (p := 0) hok hv (by simpa using h0 0) with ⟨e, he⟩ | he
  · left
    refine ⟨e, ?_⟩
    rw [Proc.bind_of_error (s' := (readBloscpackHeader (At v b 0 0)).2) (e := e) (by rw [← he])]
  rw [Proc.bind_of_ok he]
  have tail : ∀ (md : Option μ) (mh : Option MetadataHeader) (k p : Nat),
      (∃ e, ((readOffsets F.header >>= fun os => (Proc.pure (F.header, md, mh, os) : Proc Shared _)) (At v b k p)).1 = .error e) ∨
      offsetsLen F.header < 2 ^ 63 ∧ ∃ k' os t, (F.header.offsets = true → 8 * F.header.nchunks.toNat ≤ t) ∧ t ≤ offsetsLen F.header ∧
        (readOffsets F.header >>= fun os => (Proc.pure (F.header, md, mh, os) : Proc Shared _)) (At v b k p) =
          (.ok (F.header, md, mh, os), At v b k' (p + t)) := by
    intro md mh k p
    rcases readOffsets_early (v := v) (b := b) (k := k) (p := p) hn hm with ⟨e, he⟩ | ⟨hb, k', os, t, t1, t2, t3⟩
    · left
      exact ⟨e, by rw [Proc.bind_of_error (s' := (readOffsets F.header (At v b k p)).2) (e := e) (by rw [← he])]⟩
    · right
      exact ⟨hb, k', os, t, t1, t2, by rw [Proc.bind_of_ok t3]; rfl⟩
  cases hs : F.sec with
  | none =>
    rw [hs] at hflag
    have hb : F.secBytes E = [] := by simp [File.secBytes, hs]
    have hf2 : F.header.metadata = false := by simpa using hflag
    simp only [hf2]
    have := tail none none 1 32
    simpa [File.metadata, hs, hb] using this
  | some s =>
    rw [hs] at hflag
    have hb : F.secBytes E = s.bytes E := by simp [File.secBytes, hs]
    have hf2 : F.header.metadata = true := by simpa using hflag
    rw [hb] at h1 ⊢
    simp only [hf2, if_true]
    rcases readMetadata_early (b := b) (k := 1) (p := 32) L (hsec s hs) h1 (hload s hs) with ⟨e, he⟩ | ⟨k1, h3⟩
    · left
      refine ⟨e, ?_⟩
      have e1 : readMetadata E (At v b 1 32) = (.error e, (readMetadata E (At v b 1 32)).2) := by rw [← he]
      show (((readMetadata E >>= fun r => Proc.pure (r.1, some r.2)) >>= _) (At v b 1 32)).1 = _
      rw [Proc.bind_of_error (Proc.bind_of_error e1)]
    · have e1 : (readMetadata E >>= fun r => (Proc.pure (r.1, some r.2) : Proc Shared _)) (At v b 1 32) =
          (.ok (s.metadata, some s.header), At v b k1 (32 + (s.bytes E).length)) := by rw [Proc.bind_of_ok h3]; rfl
      show (∃ e, (((readMetadata E >>= fun r => (Proc.pure (r.1, some r.2) : Proc Shared _)) >>= _) (At v b 1 32)).1 = .error e) ∨ _ ∧
        ∃ k' os t, _ ∧ _ ∧ ((readMetadata E >>= fun r => (Proc.pure (r.1, some r.2) : Proc Shared _)) >>= _) (At v b 1 32) = _
      rw [Proc.bind_of_ok e1]
      have := tail s.metadata (some s.header) k1 (32 + (s.bytes E).length)
      simpa [File.metadata, hs] using this

end

end Bloscpack
