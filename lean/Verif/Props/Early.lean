import Verif.Lemmas.Early
import Verif.Props.Growing
import Verif.Props.JsonWhole
/-
C106: reading an archive while it is being packed, from before its beginning is complete.
-/
namespace Bloscpack
variable {μ : Type}

theorem placeholder_byte (h : BloscpackHeader) (j : Nat) (hj : j < (placeholder h).length) : (placeholder h)[j]? = some 255 := by
  unfold placeholder at hj ⊢
  split at hj
  · rename_i ho
    rw [if_pos ho]
    have : ∀ n, Spec.int64s (List.replicate n (-1)) = List.replicate (8 * n) 255 := by
      intro n
      induction n with
      | zero => rfl
      | succ n ih =>
        have e : Spec.int64s ((-1) :: List.replicate n (-1)) = List.replicate 8 255 ++ Spec.int64s (List.replicate n (-1)) := rfl
        rw [List.replicate_succ, e, ih, List.replicate_append_replicate]
        congr 1; omega
    rw [this] at hj ⊢
    rw [List.length_replicate] at hj
    rw [List.getElem?_replicate, if_pos hj]
  · simp at hj

theorem bytesFrom_first {v : Nat → Option UInt8} {p : Nat} (h : v p = none ∨ v p = some 255) (n : Nat) :
    bytesFrom v p n = [] ∨ ∃ y, bytesFrom v p n = 255 :: y := by
  cases n with
  | zero => exact .inl rfl
  | succ n =>
    rw [bytesFrom]
    rcases h with h | h
    · rw [h]; exact .inl rfl
    · rw [h]; exact .inr ⟨_, rfl⟩

/-- unpacking a shared file of which nothing may be there yet -/
theorem unpackShared_early {E : Env μ} (L : E.Laws) {F : File μ} (hv : F.Pre E) (v : Nat → Nat → Option UInt8) (b : Nat)
    (h0 : ∀ k j, j < 32 → v k j = none ∨ v k j = F.header.bytes[j]?)
    (h1 : ∀ k j, j < (F.secBytes E).length → v k (32 + j) = none ∨ v k (32 + j) = (F.secBytes E)[j]?)
    (hload : ∀ s, F.sec = some s → ∀ t, t < s.body.length → ∃ e, loadMetadata E s.header (s.body.take t) = .error e)
    (h2 : ∀ k j, 8 * F.header.nchunks.toNat ≤ j → j < F.offsets.length → v k (32 + (F.secBytes E).length + j) = none ∨
      v k (32 + (F.secBytes E).length + j) = some 255)
    (hff : ∀ y x, E.decompress (255 :: y) ≠ .ok x)
    (h3 : ∀ k j, v k ((F.front E).length + j) = none ∨ v k ((F.front E).length + j) = (F.body E)[j]?)
    (h4 : (F.impl E).size = 0 ∨ ∀ xs q ys, F.chunks = xs ++ q :: ys → (∀ k k', k' < k →
      (v k' ((F.front E).length + (Spec.records (F.impl E).function (xs.map (·.1))).length + q.1.length - 1)).isSome →
      (v k ((F.front E).length + (Spec.records (F.impl E).function (xs.map (·.1))).length + q.1.length)).isSome) ∨
      Unmistakable E (F.impl E).function q.1) :
    (∃ e, (unpackShared E { view := v, bound := b }).1 = .error e) ∨
      F.chunks.length = F.header.nchunks ∧ unpackShared E { view := v, bound := b } = (.ok F.metadata, F.data) := by
  obtain ⟨hl1, hl2, -⟩ := File.lookup hv
  have ho : ({ data := [] } : FP) = Z [] [] [] := rfl
  have hle := hv.nchunks_le
  have hfl : (F.front E).length = 32 + (F.secBytes E).length + offsetsLen F.header := by
    simp [File.front, BloscpackHeader.bytes_length, hv.offsets_len, Nat.add_assoc]
  unfold unpackShared unpackFP
  rcases readBeginning_early (b := b) L hv.ok hv.version hv.meta_flag hv.sec_ok (by omega) h0 h1 hload with
    ⟨e, he⟩ | ⟨-, k, os, t, t1, t2, h5⟩
  · left
    refine ⟨e, ?_⟩
    have e1 : readBeginning E (At v b 0 0) = (.error e, (readBeginning E (At v b 0 0)).2) := by rw [← he]
    rw [e1]
  rw [h5]
  simp only [hl1]
  unfold unpack
  rw [ho]
  by_cases ht : t = offsetsLen F.header
  · subst ht
    rw [← hfl]
    rcases unpackLoop_growing (b := b) (k := k) (O := []) (lo := []) L (h := F.header) hl2 F.chunks hv.chunks_ok h3 h4 F.header.nchunks.toNat 0
      (by omega) with ⟨e, he⟩ | ⟨hn, s, lo, he⟩
    · left
      refine ⟨e, ?_⟩
      show Except.map _ (unpackLoop (compressedFPSource (σ := Shared) F.header (F.impl E)) (plainFPSinkPut E) F.header.nchunks.toNat 0 _).1 = _
      rw [he]
      rfl
    · right
      refine ⟨by omega, ?_⟩
      show (Except.map _ (unpackLoop (compressedFPSource (σ := Shared) F.header (F.impl E)) (plainFPSinkPut E) F.header.nchunks.toNat 0 _).1,
        (unpackLoop (compressedFPSource (σ := Shared) F.header (F.impl E)) (plainFPSinkPut E) F.header.nchunks.toNat 0 _).2.2.data) = _
      rw [he]
      simp [Except.map, File.data]
  · have hoff : F.header.offsets = true := by
      cases hx : F.header.offsets with
      | true => rfl
      | false => simp [offsetsLen, hx] at t2 ht; omega
    have t1 := t1 hoff
    cases hN : F.header.nchunks.toNat with
    | zero =>
      right
      have hc : F.chunks.length = 0 := by omega
      have hc' : F.chunks = [] := List.length_eq_zero_iff.1 hc
      refine ⟨by omega, ?_⟩
      show (Except.map _ (unpackLoop (compressedFPSource (σ := Shared) F.header (F.impl E)) (plainFPSinkPut E) F.header.nchunks.toNat 0 _).1,
        (unpackLoop (compressedFPSource (σ := Shared) F.header (F.impl E)) (plainFPSinkPut E) F.header.nchunks.toNat 0 _).2.2.data) = _
      rw [hN]
      simp [unpackLoop, Except.map, File.data, hc']
    | succ n =>
      left
      have hno : ∀ k n, ∃ e, E.decompress (bytesFrom (v k) (32 + (F.secBytes E).length + t) n) = .error e := by
        intro k n
        cases hd : E.decompress (bytesFrom (v k) (32 + (F.secBytes E).length + t) n) with
        | error e => exact ⟨e, rfl⟩
        | ok x =>
          exfalso
          rcases bytesFrom_first (h2 k t t1 (by rw [hv.offsets_len]; omega)) n with hy | ⟨y, hy⟩
          · rw [hy] at hd
            have := (framed_of_decompress L hd).1
            simp at this
          · rw [hy] at hd
            exact hff _ _ hd
      obtain ⟨e, he⟩ := unpackLoop_wrong (b := b) (k := k) (O := []) (lo := []) (h := F.header) (impl := F.impl E) hno n 0
      refine ⟨e, ?_⟩
      show Except.map _ (unpackLoop (compressedFPSource (σ := Shared) F.header (F.impl E)) (plainFPSinkPut E) F.header.nchunks.toNat 0 _).1 = _
      rw [hN, he]
      rfl

/-- nothing but the whole body of a section can be loaded -/
theorem Written.load {E : Env μ} {md : Option μ} {m : MetadataArgs} {F : File μ} (h : Written E md m F)
    (hsec : ∀ s, F.sec = some s → s.Valid E)
    (hwhole : md = none ∨ ∀ t, E.dumps md = .ok t → Spec.OnlyWhole (encodeUtf8 t) E.loads ∧ (m.meta_codec = "zlib" →
      ∀ z, E.zcompress (encodeUtf8 t) m.meta_level = .ok z → Spec.OnlyWhole z (fun y => E.zdecompress y >>= E.loads)))
    (s : Section μ) (hs : F.sec = some s) (t : Nat) (ht : t < s.body.length) : ∃ e, loadMetadata E s.header (s.body.take t) = .error e := by
  obtain ⟨-, -, hw⟩ := h
  obtain ⟨hsome, u, u1, u2⟩ := hw s hs
  obtain ⟨w1, w2⟩ := (hwhole.resolve_left (by rintro rfl; cases hsome)) u u1
  have hne : s.body.take t ≠ s.body := by
    intro h0
    have := congrArg List.length h0
    rw [List.length_take] at this
    omega
  cases hl : loadMetadata E s.header (s.body.take t) with
  | error e => exact ⟨e, rfl⟩
  | ok x =>
    exfalso
    have hm : serializerLookup s.header.magic_format = .ok () := by rw [(hsec s hs).magic]; decide
    unfold loadMetadata at hl
    rw [hm] at hl
    rcases u2 with ⟨c1, c2⟩ | ⟨c1, c2, c3⟩
    · rw [c1] at hl
      rw [← c2] at w1
      exact hne (w1 _ x (List.take_prefix _ _) (by simpa using hl))
    · rw [c1] at hl
      refine hne (w2 c2 _ c3 _ x (List.take_prefix _ _) ?_)
      simpa [codecDecompress] using hl

/-- C106: a process that reads an archive while it is being packed, and starts at any time, gets an exception, or exactly the data and the
metadata; assuming that nothing that begins with the byte 255 is a compressed chunk, that what is stored of the metadata cannot be loaded
unless it is complete, and the same about digests as in `C106_read_while_packing_partial`. -/
theorem C106_read_any_time_partial (E : Env μ) (L : E.Laws) (data : Bytes) (cs : ChunkSizeArg) (md : Option μ) (a : BloscArgs)
    (b : BloscpackArgs) (m : MetadataArgs) (r : Except Err MetadataArgs) (fp : FP)
    (h : packBytes E data cs md a b m = (r, some fp)) (view : Nat → Nat → Option UInt8) (hseen : Spec.SeenAnyTime fp.log view)
    (hdig : b.checksum = "None" ∨
      Spec.DigestsNoted (fun c => ∃ x, E.compress x a = .ok c) (fun y => ∃ x, E.decompress y = .ok x) fp.log view)
    (hff : ∀ y x, E.decompress (255 :: y) ≠ .ok x)
    (hwhole : md = none ∨ ∀ t, E.dumps md = .ok t → Spec.OnlyWhole (encodeUtf8 t) E.loads ∧ (m.meta_codec = "zlib" →
      ∀ z, E.zcompress (encodeUtf8 t) m.meta_level = .ok z → Spec.OnlyWhole z (fun y => E.zdecompress y >>= E.loads))) (bound : Nat) :
    (∃ e, (unpackShared E { view := view, bound := bound }).1 = .error e) ∨
      unpackShared E { view := view, bound := bound } = (.ok md, data) := by
  -- a file object on which reading the beginning fails
  have hbeg : (∃ e, (readBeginning E (At view bound 0 0)).1 = .error e) → ∃ e, (unpackShared E { view := view, bound := bound }).1 = .error e := by
    rintro ⟨e, he⟩
    refine ⟨e, ?_⟩
    unfold unpackShared unpackFP
    have e1 : readBeginning E (At view bound 0 0) = (.error e, (readBeginning E (At view bound 0 0)).2) := by rw [← he]
    rw [e1]
  rcases pack_log_cases L h with hl | ⟨hd, hm, hl⟩ | ⟨F, f1, f2, f3, f4, f5, bss, rest, hl, f6, f7, f8⟩ |
    ⟨F, f1, f2, f3, f4, f5, f6, fronts, tail, f7, hl, f8, f9⟩
  · -- nothing is written
    left
    refine hbeg ?_
    have hs : ∀ k i, view k i = none := by
      intro k i
      obtain ⟨d, hd, hv⟩ := hseen k i
      rw [hl] at hd
      rcases hd with rfl | ⟨_, _, _, _, _, hx, -⟩
      · rw [hv]; rfl
      · simp at hx
    obtain ⟨x, x1, x2, x3⟩ := read_any (v := view) (b := bound) (k := 0) (p := 0) (BLOSCPACK_HEADER_LENGTH : Int)
      (by unfold BLOSCPACK_HEADER_LENGTH; omega)
    have hx : x = [] := by
      rw [x2]
      show bytesFrom (view 0) 0 32 = []
      rw [bytesFrom, hs]
    subst hx
    have hd : BloscpackHeader.decode [] = .error .valueError := by decide
    refine ⟨.valueError, ?_⟩
    unfold readBeginning
    rw [Proc.bind_of_error (e := .valueError) (s' := At view bound 1 0)]
    unfold readBloscpackHeader
    rw [Proc.bind_of_ok x3, Proc.bind_of_error (Proc.ofExcept_apply _ _ |>.trans (by rw [hd]))]
    rfl
  · -- only the header is written
    obtain ⟨hl, g1, g2⟩ := hl
    left
    refine hbeg ?_
    have hbl := hd.bytes_length
    have hs : ∀ k i, view k i = none ∨ view k i = hd.bytes[i]? := by
      intro k i
      obtain ⟨d, hd', hv⟩ := hseen k i
      rw [hl] at hd'
      obtain ⟨n, -, rfl⟩ := crashed_seqLog hd'
      rw [hv, List.flatten_singleton]
      by_cases hin : i < n
      · exact .inr (List.getElem?_take_of_lt hin)
      · exact .inl (by rw [List.getElem?_eq_none]; rw [List.length_take]; omega)
    unfold readBeginning
    rcases readHeader_early (b := bound) (k := 0) (p := 0) g1 g2 (fun j _ => by simpa using hs 0 j) with ⟨e, he⟩ | he
    · exact ⟨e, by rw [Proc.bind_of_error (s' := (readBloscpackHeader (At view bound 0 0)).2) (e := e) (by rw [← he])]⟩
    rw [Proc.bind_of_ok he]
    simp only [hm, if_true]
    obtain ⟨x, x1, x2, x3⟩ := read_any (v := view) (b := bound) (k := 1) (p := 32) (METADATA_HEADER_LENGTH : Int)
      (by unfold METADATA_HEADER_LENGTH; omega)
    have hx : x = [] := by
      rw [x2]
      show bytesFrom (view 1) 32 32 = []
      have : view 1 32 = none := by
        rcases hs 1 32 with h | h
        · exact h
        · rw [h, List.getElem?_eq_none]; omega
      rw [bytesFrom, this]
    subst hx
    have hd : MetadataHeader.decode [] = .error .valueError := by decide
    have e1 : readMetadata E (At view bound 1 32) = (.error .valueError, At view bound 2 32) := by
      unfold readMetadata
      rw [Proc.bind_of_ok x3, Proc.bind_of_error (Proc.ofExcept_apply _ _ |>.trans (by rw [hd]))]
      rfl
    refine ⟨.valueError, ?_⟩
    show (((readMetadata E >>= fun r => Proc.pure (r.1, some r.2)) >>= _) (At view bound 1 32)).1 = _
    rw [Proc.bind_of_error (Proc.bind_of_error e1)]
  · -- the space for the offsets cannot be written
    left
    refine hbeg ?_
    have hs : ∀ k i, i < 32 + (F.secBytes E).length → view k i = none ∨ view k i = (F.bytes E)[i]? := by
      intro k i hi
      obtain ⟨d, hd, hv⟩ := hseen k i
      rw [hl] at hd
      obtain ⟨n, -, rfl⟩ := crashed_seqLog hd
      rw [hv]
      by_cases hin : i < n
      · right
        rw [List.getElem?_take_of_lt hin, f7, List.getElem?_append_left (by omega)]
      · left
        rw [List.getElem?_eq_none]
        rw [List.length_take]; omega
    have hF : F.bytes E = F.header.bytes ++ (F.secBytes E ++ (F.offsets ++ (F.body E ++ F.junk))) := by
      simp [File.bytes, File.front]
    have hbl := F.header.bytes_length
    rcases readBeginning_early (v := view) (b := bound) L f1 f8.2.1 f2 f3 f4 (fun k j hj => by
        have := hs k j (by omega)
        rwa [hF, List.getElem?_append_left (by omega)] at this) (fun k j hj => by
        have := hs k (32 + j) (by omega)
        rwa [hF, List.getElem?_append_right (by omega), hbl, Nat.add_sub_cancel_left, List.getElem?_append_left hj] at this)
        (f8.load f3 hwhole) with he | ⟨hlt, -⟩
    · exact he
    · omega
  · have hflat : (fronts ++ chunksWrites (F.impl E) (F.chunks.map (·.1))).flatten = F.bytes E := by
      rw [List.flatten_append, f7, chunksWrites_flatten]
      simp [File.bytes, File.body, f2]
    have hF : F.bytes E = (F.header.bytes ++ F.secBytes E) ++ (F.offsets ++ F.body E) := by
      simp [File.bytes, File.front, f2]
    have hbl := F.header.bytes_length
    have hfl : (F.front E).length = 32 + (F.secBytes E).length + F.offsets.length := by
      simp [File.front, hbl, Nat.add_assoc]
    -- everything that is ever in the file
    have hshape : ∀ d, Spec.Crashed [] fp.log d → (∃ k, d = (F.bytes E).take k) ∨
        ∃ O : Bytes, O.length = F.offsets.length ∧ (∀ j, 8 * F.header.nchunks.toNat ≤ j → O[j]? = F.offsets[j]?) ∧
          d = (F.header.bytes ++ F.secBytes E) ++ (O ++ F.body E) := by
      intro d hd
      rw [hl] at hd
      have hbase : Spec.Crashed [] (seqLog 0 (fronts ++ chunksWrites (F.impl E) (F.chunks.map (·.1)))) d →
          ∃ k, d = (F.bytes E).take k := by
        intro hx
        obtain ⟨k, -, rfl⟩ := crashed_seqLog hx
        exact ⟨k, by rw [hflat]⟩
      rcases f8 with rfl | ⟨raw, hraw, rfl, hr8⟩
      · rw [List.append_nil] at hd
        exact .inl (hbase hd)
      · rcases crashed_snoc hd with hd | ⟨t, rfl⟩
        · exact .inl (hbase hd)
        · right
          have hr := replay_seqLog [] (fronts ++ chunksWrites (F.impl E) (F.chunks.map (·.1)))
          simp only [List.length_nil, List.nil_append] at hr
          have hpos : 32 + (F.secBytes E).length = (F.header.bytes ++ F.secBytes E).length := by rw [List.length_append, hbl]
          rw [hr, hflat, hF, hpos, overlay_mid _ _ _ _ (by rw [List.length_take]; omega)]
          refine ⟨raw.take t ++ F.offsets.drop (raw.take t).length, ?_, ?_, rfl⟩
          · rw [List.length_append, List.length_drop, List.length_take]
            omega
          · intro j hj
            have hle : (raw.take t).length ≤ j := by rw [List.length_take]; omega
            rw [List.getElem?_append_right hle, List.getElem?_drop, Nat.add_sub_cancel' hle]
    -- what is found where
    have hsame : ∀ k i, (i < 32 + (F.secBytes E).length ∨ 32 + (F.secBytes E).length + 8 * F.header.nchunks.toNat ≤ i ∨
        (F.front E).length ≤ i) → view k i = none ∨ view k i = (F.bytes E)[i]? := by
      intro k i hi
      obtain ⟨d, h1, h3⟩ := hseen k i
      rw [h3]
      rcases hshape d h1 with ⟨j, rfl⟩ | ⟨O, hO, hO8, rfl⟩
      · by_cases hij : i < j
        · exact .inr (List.getElem?_take_of_lt hij)
        · exact .inl (by rw [List.getElem?_eq_none]; rw [List.length_take]; omega)
      · right
        rw [hF]
        have hab : (F.header.bytes ++ F.secBytes E).length = 32 + (F.secBytes E).length := by rw [List.length_append, hbl]
        by_cases hmid : 32 + (F.secBytes E).length ≤ i ∧ i < (F.front E).length
        · have e : ∀ Q : Bytes, Q.length = F.offsets.length →
              ((F.header.bytes ++ F.secBytes E) ++ (Q ++ F.body E))[i]? = Q[i - (32 + (F.secBytes E).length)]? := by
            intro Q hQ
            rw [List.getElem?_append_right (by omega), hab, List.getElem?_append_left (by omega)]
          rw [e O hO, e _ rfl, hO8 _ (by omega)]
        · exact spliced_same _ _ _ _ hO i (by omega)
    refine (unpackShared_early L f1 view bound ?_ ?_ (f9.load f1.sec_ok hwhole) ?_ hff ?_ ?_).imp id
      (fun ⟨hn, he⟩ => by rw [f5, f6 hn] at he; exact he)
    · intro k j hj
      have := hsame k j (by omega)
      rwa [hF, List.append_assoc, List.getElem?_append_left (by omega)] at this
    · intro k j hj
      have := hsame k (32 + j) (by omega)
      rwa [hF, List.append_assoc, List.getElem?_append_right (by omega), hbl, Nat.add_sub_cancel_left,
        List.getElem?_append_left hj] at this
    · intro k j h1 h2
      have := hsame k (32 + (F.secBytes E).length + j) (by omega)
      have hab : (F.header.bytes ++ F.secBytes E).length = 32 + (F.secBytes E).length := by rw [List.length_append, hbl]
      rw [hF, List.getElem?_append_right (by omega), hab, Nat.add_sub_cancel_left, List.getElem?_append_left h2, f9.1,
        placeholder_byte _ _ (by rw [← f9.1]; exact h2)] at this
      exact this
    · intro k j
      have := hsame k ((F.front E).length + j) (by omega)
      rwa [show F.bytes E = F.front E ++ F.body E by simp [File.bytes, f2], List.getElem?_append_right (by omega),
        Nat.add_sub_cancel_left] at this
    · exact digests_noted L f1 f3 f4 f7 hl hdig

/-- C106, for a dict as metadata: what is assumed about metadata is so with JSON, and with zlib if it does not decompress what is not complete. -/
theorem C106_read_dict_partial (E : Env μ) (L : E.Laws) (data : Bytes) (cs : ChunkSizeArg) (d : List (PyStr × Json)) (a : BloscArgs)
    (b : BloscpackArgs) (m : MetadataArgs) (r : Except Err MetadataArgs) (fp : FP)
    (h : packBytes E.withJson data cs (some (.obj d)) a b m = (r, some fp)) (view : Nat → Nat → Option UInt8)
    (hseen : Spec.SeenAnyTime fp.log view)
    (hdig : b.checksum = "None" ∨
      Spec.DigestsNoted (fun c => ∃ x, E.compress x a = .ok c) (fun y => ∃ x, E.decompress y = .ok x) fp.log view)
    (hff : ∀ y x, E.decompress (255 :: y) ≠ .ok x)
    (hz : m.meta_codec = "zlib" → ∀ raw z, E.zcompress raw m.meta_level = .ok z → Spec.OnlyWhole z E.zdecompress) (bound : Nat) :
    (∃ e, (unpackShared E.withJson { view := view, bound := bound }).1 = .error e) ∨
      unpackShared E.withJson { view := view, bound := bound } = (.ok (some (.obj d)), data) := by
  refine C106_read_any_time_partial E.withJson L.withJson data cs _ a b m r fp h view hseen hdig hff (.inr fun t ht => ?_) bound
  have ht' : t = dumpsJson (.obj d) := by
    simp only [Env.withJson] at ht
    split at ht
    · cases ht; rfl
    · cases ht
  subst ht'
  refine ⟨fun part x hp hx => ?_, fun hc z hzc part x hp hx => ?_⟩
  · replace hx : (loadsJson part).map Json.toOption = .ok x := hx
    cases hl : loadsJson part with
    | error e => rw [hl] at hx; cases hx
    | ok y => exact C98_whole d part y hp hl
  · replace hx : (E.zdecompress part >>= E.withJson.loads) = .ok x := hx
    cases hl : E.zdecompress part with
    | error e => rw [hl] at hx; cases hx
    | ok y => exact hz hc _ z hzc part y hp hl

/-! ### a case -/

/-- the toy libraries, with a blosc that looks at the first byte -/
def Toy.strictEnv : Env Nat := { Toy.env with decompress := fun c => if c.head? = some 2 then Toy.decompress c else .error .bloscError }

theorem Toy.strictLaws : Toy.strictEnv.Laws where
  compress_total := Toy.laws.compress_total
  compress_reject := Toy.laws.compress_reject
  compress_header := Toy.laws.compress_header
  decompress_compress := by
    intro d a c h
    have h1 : Toy.decompress c = .ok d := Toy.laws.decompress_compress d a c h
    have h2 : c.head? = some 2 := by
      replace h : Toy.compress d a = .ok c := h
      unfold Toy.compress at h
      split at h
      · cases h; rfl
      · cases h
    show (if c.head? = some 2 then Toy.decompress c else .error .bloscError) = _
    rw [if_pos h2, h1]
  decompress_length := by
    intro c d h
    replace h : (if c.head? = some 2 then Toy.decompress c else .error .bloscError) = .ok d := h
    split at h
    · exact Toy.laws.decompress_length c d h
    · cases h
  zdecompress_zcompress := Toy.laws.zdecompress_zcompress
  zcompress_total := Toy.laws.zcompress_total
  hashlib_length := Toy.laws.hashlib_length
  dumps_ascii := Toy.laws.dumps_ascii
  loads_dumps := Toy.laws.loads_dumps

/-- the writes of a run over two chunks with a dict as metadata, checksums and offsets -/
def earlyLog : List (Nat × Bytes) :=
  ((packBytes Toy.strictEnv.withJson [1, 2, 3] (.int 2) (some (.obj [([97], .int 7)])) {} { max_app_chunks := .int 1 }
      { meta_codec := "None", max_meta_size := .int 9 }).2.map (·.log)).getD []

/-- a reader that finds the file as it is after `n k` writes when it calls `read` for the `k`-th time -/
theorem seenAnyTime_of_counts (log : List (Nat × Bytes)) (n : Nat → Nat) :
    Spec.SeenAnyTime log (fun k i => (Spec.replay [] (log.take (n k)))[i]?) := by
  intro k i
  refine ⟨_, ?_, rfl⟩
  have := crashed_before (d := []) (log.take (n k)) (log.drop (n k))
  rwa [List.take_append_drop] at this

/-- a reader that is one write ahead at each of its first three calls of `read`, and finds everything afterwards -/
def earlyCounts (k : Nat) : Nat := if k < 3 then k + 1 else 12

/-- it meets the hypotheses: its first call finds nothing but the header -/
example : earlyLog.length = 12 ∧ (Spec.replay [] (earlyLog.take (earlyCounts 0))).length = 32 := by
  decide +kernel

example : Spec.DigestsNoted (fun c => ∃ x, Toy.strictEnv.compress x {} = .ok c) (fun y => ∃ x, Toy.strictEnv.decompress y = .ok x) earlyLog
      (fun k i => (Spec.replay [] (earlyLog.take (earlyCounts k)))[i]?) ∧
    (∀ y x, Toy.strictEnv.decompress (255 :: y) ≠ .ok x) := by
  refine ⟨?_, fun y x h => ?_⟩
  · intro pre p c D post hc hl
    refine .inl fun k k' hk hv => ?_
    have h2 : c.head? = some 2 := by
      obtain ⟨x, hx⟩ := hc
      replace hx : Toy.compress x {} = .ok c := hx
      unfold Toy.compress at hx
      split at hx
      · cases hx; rfl
      · cases hx
    have h1 : ∀ w ∈ earlyLog, w.2.head? = some 2 → 101 ≤ w.1 := by decide +kernel
    have h3 := h1 (p, c) (by rw [hl]; simp) h2
    have h4 : ∀ w ∈ earlyLog, w.1 < (Spec.replay [] (earlyLog.take 12)).length := by decide +kernel
    have h5 := h4 (p + c.length, D) (by rw [hl]; simp)
    have h6 : ∀ n, n < 3 → (Spec.replay [] (earlyLog.take (n + 1))).length ≤ 71 := by decide +kernel
    have hk3 : 3 ≤ k := by
      rcases Nat.lt_or_ge k' 3 with hlt | hge
      · exfalso
        simp only [earlyCounts, hlt, if_true] at hv
        rw [List.getElem?_eq_none (by have := h6 k' hlt; omega)] at hv
        cases hv
      · omega
    simp only [earlyCounts, show ¬ k < 3 by omega, if_false]
    rw [List.getElem?_eq_getElem h5]
    rfl
  · cases (show (Except.error .bloscError : Except Err Bytes) = .ok x from h)

/-- and it gets everything -/
example : ((unpackShared Toy.strictEnv.withJson { view := fun k i => (Spec.replay [] (earlyLog.take (earlyCounts k)))[i]?, bound := 200 }).1.toOption.map
        (fun md => md.map dumpsJson),
      (unpackShared Toy.strictEnv.withJson { view := fun k i => (Spec.replay [] (earlyLog.take (earlyCounts k)))[i]?, bound := 200 }).2) =
    (some (some "{\"a\":7}".toList), [1, 2, 3]) := by
  decide +kernel

/-- one that finds the header of the metadata and not the metadata gets an exception, although everything is there when it looks for the digest -/
example : ((unpackShared Toy.strictEnv.withJson { view := fun k i => (Spec.replay [] (earlyLog.take (if k < 3 then 2 else 12)))[i]?, bound := 200 }).1.toOption.map
        (fun md => md.map dumpsJson),
      (unpackShared Toy.strictEnv.withJson { view := fun k i => (Spec.replay [] (earlyLog.take (if k < 3 then 2 else 12)))[i]?, bound := 200 }).2) =
    (none, []) := by
  decide +kernel

end Bloscpack
