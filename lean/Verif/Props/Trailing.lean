import Verif.Props.Archive
import Verif.Props.Crash
import Verif.Examples.Toy
/-!
C82: bytes behind an archive are ignored. C83: the announced number of chunks cannot exceed what is there.
-/
namespace Bloscpack
variable {μ : Type}

/-! ### C82 -/

/-- C82: what follows a packed archive, whatever it is, has no effect on unpacking it, neither in memory nor in a file. -/
theorem C82_packed (E : Env μ) (L : E.Laws) (data : Bytes) (cs : ChunkSizeArg) (md : Option μ) (a : BloscArgs)
    (b : BloscpackArgs) (m : MetadataArgs) (out : Bytes) (h : packBytesToBytes E data cs md a b m = .ok out) (junk : Bytes) :
    unpackBytesFromBytes E (out ++ junk) = .ok (data, md) ∧
    ∀ (fs : FS) (name : String), fs.files name = some (out ++ junk) → unpackBytesFromFile E fs name = .ok (data, md) := by
  obtain ⟨F, n, c, l, m', rfl, hF, hj, rfl, rfl, -⟩ := packBytesToBytes_ok L h
  let G : File μ := { F with junk := junk }
  have hG : G.Valid E := ⟨⟨hF.ok, hF.version, hF.meta_flag, hF.sec_ok, hF.offsets_len, hF.offsets_small, hF.nchunks_le, hF.chunks_ok⟩, hF.nchunks⟩
  have hb : F.bytes E ++ junk = G.bytes E := by
    unfold File.bytes
    rw [hj, List.append_nil, List.append_assoc]
    rfl
  have hu := unpackFrom_file L hG
  rw [hb]
  refine ⟨unpackBytes_ok hu, fun fs name hfs => ?_⟩
  rw [unpackBytesFromFile_eq E hfs, hu]
  rfl

theorem Chunks.append {E : Env μ} {dg : Bytes → Bytes} {S : Bytes} {n : Nat} {out : Bytes} (h : Spec.Chunks E dg S n out) :
    (∀ junk, Spec.Chunks E dg (S ++ junk) n out) ∨
    ∃ front c d, S = front ++ c ∧ E.decompress c = .ok d ∧ dg c ≠ [] := by
  induction h with
  | done rest => exact .inl fun junk => .done _
  | chunk c d rest n out hd _ ih =>
    rcases ih with ih | ⟨front, c', d', rfl, h1, h2⟩
    · exact .inl fun junk => by
        rw [List.append_assoc]
        exact .chunk c d _ n out hd (ih junk)
    · exact .inr ⟨c ++ dg c ++ front, c', d', by simp, h1, h2⟩
  | undigested c d hd =>
    by_cases hc : dg c = []
    · left
      intro junk
      have := Spec.Chunks.chunk (digest := dg) c d junk 0 [] hd (.done _)
      rwa [hc, List.append_nil, List.append_nil] at this
    · exact .inr ⟨[], c, d, rfl, hd, hc⟩

theorem Chunks.bound {E : Env μ} (L : E.Laws) {dg : Bytes → Bytes} {S : Bytes} {n : Nat} {out : Bytes}
    (h : Spec.Chunks E dg S n out) : 16 * n ≤ S.length := by
  induction h with
  | done rest => simp
  | chunk c d rest n out hd _ ih =>
    have := (L.decompress_length _ _ hd).1
    simp only [List.length_append]
    omega
  | undigested c d hd =>
    have := (L.decompress_length _ _ hd).1
    omega

theorem headerBytes_length (v : Int) (o m : Bool) (ck : String) (t c l n a : Int) :
    (Spec.headerBytes v o m ck t c l n a).length = 32 := by
  simp [Spec.headerBytes, leBytes_length]

theorem slice_stable {x : Bytes} {i j : Nat} (junk : Bytes) (h : j ≤ x.length) : slice (x ++ junk) i j = slice x i j :=
  slice_append_left _ _ _ _ h

theorem length_of_slice {x : Bytes} {i j n : Nat} (h : (slice x i j).length = n) (hn : n ≠ 0) (hj : n = j - i) : j ≤ x.length := by
  simp [slice] at h
  omega

/-- a metadata section whose body is complete stays one when something is appended -/
theorem MetadataAt.append {E : Env μ} (L : E.Laws) {b : Bool} {x : Bytes} {p : Nat} {md : Option μ} (h : Spec.MetadataAt E b x 32 p md)
    (hc : 64 + leDecode (slice x 52 56) ≤ x.length) (junk : Bytes) : Spec.MetadataAt E b (x ++ junk) 32 p md := by
  obtain ⟨magic, user, options, checksum, codec, level, size, maxSize, compSize, i, j, body, raw, h1, h2, h3, h4, h5, h6, h7, h8, h9, h10,
    h11⟩ := h
  have hcs : leDecode (slice x 52 56) = compSize.toNat := by
    have e : slice (slice x 32 (32 + 32)) 20 24 = slice x 52 56 := by
      simp [slice, List.drop_take, List.take_take]
    rw [← e, h5]
    have hm : (Spec.padded8 magic).length = 8 := by simp [Spec.padded8]
    have : slice (Spec.metaHeaderBytes magic options checksum codec level size maxSize compSize user) 20 24 = Spec.leBytes 4 compSize := by
      unfold Spec.metaHeaderBytes
      rw [slice_append_left _ _ _ _ (by simp [leBytes_length, hm]), slice_append_right _ _ _ _ (by simp [leBytes_length, hm])]
      simp only [List.length_append, hm, leBytes_length, List.length_cons, List.length_nil]
      exact slice_all _ _ (by simp [leBytes_length])
    rw [this, leDecode_leBytes h1.2.2.2.2.2.2.2.1.1 (by have := h1.2.2.2.2.2.2.2.1.2; omega)]
  rw [hcs] at hc
  have hds : (Spec.digest E checksum body).length = Spec.digestSize checksum := by
    obtain ⟨impl, hi, -⟩ := checksumLookup_of (hl := E.hashlib) h1.2.2.1
    have := digest_eq hi body
    rw [← this.1, ← this.2]
    exact Hash.size_eq L (checksumLookup_mem hi).1 body
  refine ⟨magic, user, options, checksum, codec, level, size, maxSize, compSize, i, j, body, raw, h1, h2, h3, h4, ?_, ?_, h7, h8, ?_, h10,
    h11⟩
  · rw [slice_stable _ (by omega), h5]
  · rw [slice_stable _ (by omega), h6]
  · by_cases h0 : Spec.digestSize checksum = 0
    · rw [h0] at hds ⊢
      rw [List.length_eq_zero_iff.1 hds]
      simp [slice]
    · rw [slice_stable _ (length_of_slice (n := Spec.digestSize checksum) (by rw [h9, hds]) h0 (by omega)), h9]

/-- C82, for everything `unpack` accepts, packed by bloscpack or not. Suppose `x` is accepted, and is long enough for the metadata its
metadata header announces (if its header announces metadata at all). Then either what follows `x` has no effect; or there are
checksums, and `x` ends with a chunk that lacks its digest. -/
theorem C82_accepted (E : Env μ) (L : E.Laws) (x out : Bytes) (md : Option μ) (h : unpackBytesFromBytes E x = .ok (out, md))
    (hm : slice x 5 6 = [Spec.optionsByte true false] ∨ slice x 5 6 = [Spec.optionsByte false false] ∨
      64 + leDecode (slice x 52 56) ≤ x.length) :
    (∀ junk, unpackBytesFromBytes E (x ++ junk) = .ok (out, md)) ∨
    (slice x 6 7 ≠ [0] ∧ ∃ front c d, x = front ++ c ∧ E.decompress c = .ok d) := by
  obtain ⟨offsets, metadata, checksum, typesize, chunkSize, lastChunk, nchunks, maxApp, p, q, hok, hx, hmeta, hoff, hch⟩ :=
    (C81_memory E L x out md).1 h
  have h32 : 32 ≤ x.length := by
    have := congrArg List.length hx
    rw [headerBytes_length, List.length_take] at this
    omega
  have hflag : slice x 5 6 = [Spec.optionsByte offsets metadata] := by
    have e : slice (x.take 32) 5 6 = slice x 5 6 := by simp [slice, List.drop_take, List.take_take]
    rw [← e, hx]
    rfl
  have hck : slice x 6 7 = [UInt8.ofNat (Spec.checksumNames.idxOf checksum)] := by
    have e : slice (x.take 32) 6 7 = slice x 6 7 := by simp [slice, List.drop_take, List.take_take]
    rw [← e, hx]
    rfl
  rcases Chunks.append hch with hch | ⟨front, c, d, hS, hd, hdg⟩
  · left
    intro junk
    refine (C81_memory E L _ out md).2 ⟨offsets, metadata, checksum, typesize, chunkSize, lastChunk, nchunks, maxApp, p, q, hok, ?_, ?_, ?_, ?_⟩
    · rw [List.take_append_of_le_length h32, hx]
    · rcases hmeta with ⟨rfl, hM⟩ | hM
      · refine .inl ⟨rfl, MetadataAt.append L hM ?_ junk⟩
        rcases hm with hm | hm | hm
        · rw [hflag] at hm; cases offsets <;> simp [Spec.optionsByte] at hm
        · rw [hflag] at hm; cases offsets <;> simp [Spec.optionsByte] at hm
        · exact hm
      · exact .inr hM
    · rcases hoff with ⟨h1, h2, h3, h4⟩ | h1
      · refine .inl ⟨h1, h2, ?_, h4⟩
        rcases h3 with h3 | h3
        · exact .inl h3
        · right; rw [List.length_append]; omega
      · exact .inr h1
    · by_cases hq : q ≤ x.length
      · rw [List.drop_append_of_le_length hq]
        exact hch junk
      · have e0 : x.drop q = [] := List.drop_of_length_le (by omega)
        rw [e0] at hch
        exact hch _
  · right
    refine ⟨?_, x.take q ++ front, c, d, by rw [List.append_assoc, ← hS, List.take_append_drop], hd⟩
    intro h0
    apply hdg
    rw [hck] at h0
    have : checksum = "None" := by
      have hmem := hok.2.1
      simp only [Spec.checksumNames, List.mem_cons, List.not_mem_nil, or_false] at hmem
      rcases hmem with rfl | rfl | rfl | rfl | rfl | rfl | rfl | rfl | rfl <;> first | rfl | (exfalso; revert h0; decide)
    subst this
    rfl

/-- C82 does not hold for everything `unpack` accepts: with checksums, a packed archive without its last digest is accepted, but not
when something follows it, unless that is the digest itself. -/
theorem C82_violated (E : Env μ) (L : E.Laws) (data : Bytes) (cs : ChunkSizeArg) (md : Option μ) (a : BloscArgs)
    (b : BloscpackArgs) (m : MetadataArgs) (out : Bytes) (h : packBytesToBytes E data cs md a b m = .ok out)
    (hb : Spec.digestSize b.checksum ≠ 0) :
    ∃ x dg, out = x ++ dg ∧ dg.length = Spec.digestSize b.checksum ∧ unpackBytesFromBytes E x = .ok (data, md) ∧
      ∀ junk, junk ≠ [] → ¬ dg <+: junk → unpackBytesFromBytes E (x ++ junk) = .error .checksumMismatch := by
  obtain ⟨hlen, hacc⟩ := C23_violated E L data cs md a b m out h hb
  obtain ⟨F, n, c, l, m', rfl, hF, hj, rfl, rfl, -, hcalc, h2, h3⟩ := packBytesToBytes_ok L h
  obtain ⟨-, -, -, -, g5, -, g7, -, g9, -⟩ := packHeader_ok h2
  obtain ⟨hl1, hl2, -, hl4⟩ := File.lookup hF.toPre
  rw [← g5, ← hl4] at hacc hlen hb ⊢
  obtain ⟨init, p, hch, -⟩ := hF.lengths
  have h5 := Hash.size_eq L hl2 p.1
  let X : Bytes := F.front E ++ Spec.records (F.impl E).function (init.map (·.1)) ++ p.1
  have hout : F.bytes E = X ++ (F.impl E).function p.1 := by
    unfold File.bytes File.body
    rw [hch, hj, List.map_append, records_append]
    simp [Spec.records, X]
  have hX : (F.bytes E).take ((F.bytes E).length - (F.impl E).size) = X := by
    rw [hout, List.length_append, h5, Nat.add_sub_cancel, List.take_left]
  rw [hX] at hacc
  refine ⟨X, (F.impl E).function p.1, hout, h5, hacc, fun junk hne hpre => ?_⟩
  have hpd : E.decompress p.1 = .ok p.2 := hF.chunks_ok p (by rw [hch]; simp)
  obtain ⟨hp16, hplen⟩ := L.decompress_length _ _ hpd
  let G : File μ := { F with chunks := init, junk := p.1 ++ junk }
  have hcl : F.chunks.length = init.length + 1 := by rw [hch]; simp
  have hG : G.Pre E := ⟨hF.ok, hF.version, hF.meta_flag, hF.sec_ok, hF.offsets_len, hF.offsets_small, by
      have := hF.nchunks_le
      show (init.length : Int) ≤ F.header.nchunks
      omega, fun q hq => hF.chunks_ok q (by rw [hch]; exact List.mem_append_left _ hq)⟩
  have hGb : X ++ junk = G.bytes E := by
    show _ = F.front E ++ (Spec.records (F.impl E).function (init.map (·.1)) ++ (p.1 ++ junk))
    simp [X]
  have hmis := unpackFrom_mismatch L hG (by
      have := hF.nchunks
      show (init.length : Int) < F.header.nchunks
      omega) p.1 (junk.take (F.impl E).size) (junk.drop (F.impl E).size)
    (by show p.1 ++ junk = _; simp) hp16 hplen (by show _ ≤ (F.impl E).size; simp; omega)
    (by
      intro hlt
      apply List.drop_of_length_le
      replace hlt : (junk.take (F.impl E).size).length < (F.impl E).size := hlt
      simp at hlt
      omega)
    (by
      intro h0
      have := congrArg List.length h0
      have hpos : 0 < junk.length := List.length_pos_iff.2 hne
      rw [List.length_take, List.length_nil] at this
      omega)
    (by
      intro h0
      apply hpre
      replace h0 : junk.take (F.impl E).size = (F.impl E).function p.1 := h0
      rw [← h0]
      exact List.take_prefix _ _)
  rw [hGb]
  exact unpackBytes_error hmis (by simp)

/-! ### C83 -/

theorem leBytes_decode (w : Nat) (v : Int) : leDecode (Spec.leBytes w v) = (v % 256 ^ w).toNat := by
  rw [← leEncode_emod, leDecode_leEncode]
  have h0 : (0 : Int) < 256 ^ w := Int.pow_pos (by decide)
  have h1 := Int.emod_nonneg v (Int.ne_of_gt h0)
  have h2 := Int.emod_lt_of_pos v h0
  have h3 : ((256 ^ w : Nat) : Int) = 256 ^ w := by simp
  omega

/-- C83: what is accepted is at least as long as the blosc headers of all the chunks it announces; a forged number of chunks that is
larger than that is always noticed. -/
theorem C83_accepted (E : Env μ) (L : E.Laws) (x out : Bytes) (md : Option μ) (h : unpackBytesFromBytes E x = .ok (out, md))
    (n : Nat) (hn : n < 2 ^ 63) (hx : slice x 16 24 = Spec.leBytes 8 n) : 16 * n ≤ x.length := by
  obtain ⟨offsets, metadata, checksum, typesize, chunkSize, lastChunk, nchunks, maxApp, p, q, hok, hx', hmeta, hoff, hch⟩ :=
    (C81_memory E L x out md).1 h
  have hnc : Spec.leBytes 8 nchunks = Spec.leBytes 8 n := by
    have e : slice (x.take 32) 16 24 = slice x 16 24 := by simp [slice, List.drop_take, List.take_take]
    rw [← hx, ← e, hx']
    rfl
  replace hnc := congrArg leDecode hnc
  rw [leBytes_decode, leBytes_decode] at hnc
  have h1 := hok.2.2.2.2.2.1.1
  have h2 := hok.2.2.2.2.2.1.2
  have h3 : (256 : Int) ^ 8 = 18446744073709551616 := by decide
  rw [h3] at hnc
  have hb := Chunks.bound L hch
  have hl : (x.drop q).length ≤ x.length := by simp
  omega

/-- from a certain point on, more rounds make no difference -/
theorem unpackLoop_enough {E : Env μ} (L : E.Laws) {impl : Hash} (h h' : BloscpackHeader) :
    ∀ (k : Nat) (R A A' : Bytes) (l l') (O : Bytes) (lo lo') (n n' i i' : Nat), R.length < 16 * k → R.length < 16 * n → R.length < 16 * n' →
      ∃ e o s s' t t', unpackLoop (compressedFPSource h impl) (plainFPSinkPut E) n i (Z A R l, Z O [] lo) = (.error e, (s, t)) ∧
        unpackLoop (compressedFPSource h' impl) (plainFPSinkPut E) n' i' (Z A' R l', Z O [] lo') = (.error e, (s', t')) ∧
        t.data = o ∧ t'.data = o := by
  intro k
  induction k with
  | zero => intro R A A' l l' O lo lo' n n' i i' h0; omega
  | succ k ih =>
    intro R A A' l l' O lo lo' n n' i i' hk hn hn'
    obtain ⟨n, rfl⟩ : ∃ j, n = j + 1 := ⟨n - 1, by omega⟩
    obtain ⟨n', rfl⟩ : ∃ j, n' = j + 1 := ⟨n' - 1, by omega⟩
    by_cases h16 : R.length < 16
    · obtain ⟨e, he⟩ := decodeBloscHeader_short (b := R.take 16) (by simp; omega)
      have key : ∀ (h : BloscpackHeader) (A l n i lo), unpackLoop (compressedFPSource h impl) (plainFPSinkPut E) (n + 1) i (Z A R l, Z O [] lo) =
          (.error e, (Z (A ++ R.take 16) (R.drop 16) l, Z O [] lo)) := by
        intro h A l n i lo
        have hrd : fpRead BLOSC_HEADER_LENGTH (Z A R l) = (.ok (R.take 16), Z (A ++ R.take 16) (R.drop 16) l) :=
          fpRead_Z A R l 16
        have hr : readCompressedChunk impl (Z A R l) = (.error e, Z (A ++ R.take 16) (R.drop 16) l) := by
          unfold readCompressedChunk
          rw [Proc.bind_of_ok hrd, Proc.bind_of_error (Proc.ofExcept_apply _ _ |>.trans (by rw [he]))]
        have hn : (compressedFPSource h impl).next i (Z A R l) = (.error e, Z (A ++ R.take 16) (R.drop 16) l) := by
          show (readCompressedChunk impl >>= fun r => Proc.pure (r.1, r.2.2)) _ = _
          rw [Proc.bind_of_error hr]
        show (Proc.onFst ((compressedFPSource h impl).next i) >>= _) _ = _
        rw [Proc.bind_of_error (s' := (Z (A ++ R.take 16) (R.drop 16) l, Z O [] lo)) (e := e) (by rw [Proc.onFst_apply, hn])]
      exact ⟨e, O, _, _, _, _, key h A l n i lo, key h' A' l' n' i' lo', by simp [Z], by simp [Z]⟩
    · have r1 := unpackLoop_round (E := E) (h := h) (impl := impl) A R l O lo n i (by omega) _ _ _ rfl rfl rfl
      have r2 := unpackLoop_round (E := E) (h := h') (impl := impl) A' R l' O lo' n' i' (by omega) _ _ _ rfl rfl rfl
      by_cases hbad : (R.drop (leDecode (slice R 12 16))).take impl.size ≠ [] ∧
          (R.drop (leDecode (slice R 12 16))).take impl.size ≠ impl.function (R.take (leDecode (slice R 12 16)))
      · exact ⟨_, O, _, _, _, _, r1.1 hbad, r2.1 hbad, by simp [Z], by simp [Z]⟩
      · cases hd : E.decompress (R.take (leDecode (slice R 12 16))) with
        | error e => exact ⟨_, O, _, _, _, _, (r1.2 hbad).1 e hd, (r2.2 hbad).1 e hd, by simp [Z], by simp [Z]⟩
        | ok d =>
          rw [(r1.2 hbad).2 d hd, (r2.2 hbad).2 d hd]
          have hl := (L.decompress_length _ _ hd).1
          have hle : ((R.drop (leDecode (slice R 12 16))).drop impl.size).length + 16 ≤ R.length := by
            rw [List.length_take] at hl
            simp only [List.length_drop]
            omega
          exact ih _ _ _ _ _ _ _ _ n n' _ _ (by omega) (by omega) (by omega)

/-- C83: announcing more chunks than what follows can hold always raises, and how many more makes no difference: neither to the
exception nor to what was written before it. `rest` is arbitrary. -/
theorem C83_forged (E : Env μ) (L : E.Laws) (checksum : String) (typesize chunkSize lastChunk n n' maxApp : Int) (rest : Bytes)
    (hok : Spec.HeaderFieldsOK 3 typesize chunkSize lastChunk n maxApp checksum)
    (hok' : Spec.HeaderFieldsOK 3 typesize chunkSize lastChunk n' maxApp checksum)
    (hn : rest.length < 16 * n) (hn' : rest.length < 16 * n') :
    ∃ e written,
      ∀ x, x = Spec.headerBytes 3 false false checksum typesize chunkSize lastChunk n maxApp ++ rest ∨
          x = Spec.headerBytes 3 false false checksum typesize chunkSize lastChunk n' maxApp ++ rest →
        unpackBytesFromBytes E x = .error e ∧
        ∀ (fs : FS) (i o : String), fs.files i = some x → fs.canWrite o = true → i ≠ o →
          (unpackFileFromFile E fs i o).1 = .error e ∧ (unpackFileFromFile E fs i o).2.files o = some written := by
  let F : File μ := ⟨⟨3, false, false, checksum, typesize, chunkSize, lastChunk, n, maxApp⟩, none, [], [], rest⟩
  let F' : File μ := ⟨⟨3, false, false, checksum, typesize, chunkSize, lastChunk, n', maxApp⟩, none, [], [], rest⟩
  have hF : F.Pre E := ⟨hok, rfl, rfl, (fun s hs => nomatch hs), rfl, by show (0 : Nat) < 2 ^ 63; decide, by show (0 : Int) ≤ n; omega, (fun p hp => nomatch hp)⟩
  have hF' : F'.Pre E := ⟨hok', rfl, rfl, (fun s hs => nomatch hs), rfl, by show (0 : Nat) < 2 ^ 63; decide, by show (0 : Int) ≤ n'; omega, (fun p hp => nomatch hp)⟩
  obtain ⟨lo, h1⟩ := unpackFrom_pre L hF
  obtain ⟨lo', h2⟩ := unpackFrom_pre L hF'
  obtain ⟨e, o, s, s', t, t', g1, g2, g3, g4⟩ := unpackLoop_enough (E := E) L (impl := F.impl E) F.header F'.header (rest.length / 16 + 1) rest
    (F.front E ++ F.body E) (F'.front E ++ F'.body E) [] [] F.data lo lo' n.toNat n'.toNat 0 0 (by omega) (by omega) (by omega)
  have g1' : unpackLoop (compressedFPSource F.header (F.impl E)) (plainFPSinkPut E) (F.header.nchunks.toNat - F.chunks.length) F.chunks.length
    (Z (F.front E ++ F.body E) F.junk [], Z F.data [] lo) = (.error e, (s, t)) := g1
  have g2' : unpackLoop (compressedFPSource F'.header (F'.impl E)) (plainFPSinkPut E) (F'.header.nchunks.toNat - F'.chunks.length)
    F'.chunks.length (Z (F'.front E ++ F'.body E) F'.junk [], Z F'.data [] lo') = (.error e, (s', t')) := g2
  have k1 : unpackFrom E (F.bytes E) = (.error e, o) := by
    rw [h1, g1']
    simp only [Except.map, g3]
  have k2 : unpackFrom E (F'.bytes E) = (.error e, o) := by
    rw [h2, g2']
    simp only [Except.map, g4]
  have key : ∀ (G : File μ), G.Pre E → unpackFrom E (G.bytes E) = (.error e, o) →
      unpackBytesFromBytes E (G.bytes E) = .error e ∧
        ∀ (fs : FS) (i o' : String), fs.files i = some (G.bytes E) → fs.canWrite o' = true → i ≠ o' →
          (unpackFileFromFile E fs i o').1 = .error e ∧ (unpackFileFromFile E fs i o').2.files o' = some o := by
    intro G hG hu
    have hno := hG.not_overshoots (G.bytes E).length
    rw [List.take_length] at hno
    refine ⟨unpackBytes_error' hu hno, fun fs i o' hi ho hne => ?_⟩
    unfold unpackFileFromFile
    simp only [FS.getsize, FS.openRead, hi, FS.openWrite, ho, if_true, current_put_ne hne hi, hu]
    exact ⟨trivial, by simp [FS.put]⟩
  have b1 : F.bytes E = Spec.headerBytes 3 false false checksum typesize chunkSize lastChunk n maxApp ++ rest := by
    show (Spec.headerBytes 3 false false checksum typesize chunkSize lastChunk n maxApp ++ ([] ++ [])) ++ ([] ++ rest) = _
    simp
  have b2 : F'.bytes E = Spec.headerBytes 3 false false checksum typesize chunkSize lastChunk n' maxApp ++ rest := by
    show (Spec.headerBytes 3 false false checksum typesize chunkSize lastChunk n' maxApp ++ ([] ++ [])) ++ ([] ++ rest) = _
    simp
  refine ⟨e, o, ?_⟩
  rintro x (rfl | rfl)
  · rw [← b1]; exact key F hF k1
  · rw [← b2]; exact key F' hF' k2

/-- an archive of two chunks, with something behind it; without its last digest, with something behind that; and the announced number of
chunks changed to 7 and to 9 -/
example : (packBytesToBytes Toy.env [1, 2, 3] (.int 2) none {} { offsets := false }).toOption.map (fun p =>
    [p ++ [7], p.take 71, p.take 71 ++ [7], p.set 16 7, p.set 16 9].map (fun x => unpackBytesFromBytes Toy.env x)) =
    some [.ok ([1, 2, 3], none), .ok ([1, 2, 3], none), .error .checksumMismatch, .error .indexError, .error .indexError] := by
  decide +kernel

end Bloscpack
