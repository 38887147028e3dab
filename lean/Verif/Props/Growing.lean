import Verif.Spec.Growing
import Verif.Lemmas.Growing
import Verif.Props.Crash
import Verif.Props.Shared
/-
C106: reading an archive while it is being packed.
-/
namespace Bloscpack
variable {μ : Type}

theorem overlay_length_le (d : Bytes) (p : Nat) (bs : Bytes) : d.length ≤ (overlay d p bs).length := by
  unfold overlay
  split
  · omega
  · simp; omega

theorem replay_length_le (log : List (Nat × Bytes)) (d : Bytes) : d.length ≤ (Spec.replay d log).length := by
  induction log generalizing d with
  | nil => exact Nat.le_refl _
  | cons w ws ih => rw [replay_cons]; exact Nat.le_trans (overlay_length_le _ _ _) (ih _)

theorem crashed_length_le {d d' : Bytes} {log : List (Nat × Bytes)} (h : Spec.Crashed d log d') : d.length ≤ d'.length := by
  rcases h with rfl | ⟨done, p, bs, todo, t, -, rfl⟩
  · exact Nat.le_refl _
  · exact Nat.le_trans (replay_length_le _ _) (overlay_length_le _ _ _)

theorem crashed_before {d : Bytes} (done todo : List (Nat × Bytes)) : Spec.Crashed d (done ++ todo) (Spec.replay d done) :=
  crashed_later (.inl rfl)

theorem spliced_same (A O O' B : Bytes) (h : O.length = O'.length) (i : Nat) (hi : i < A.length ∨ A.length + O'.length ≤ i) :
    (A ++ (O ++ B))[i]? = (A ++ (O' ++ B))[i]? := by
  rcases hi with hi | hi
  · exact (List.getElem?_append_left hi).trans (List.getElem?_append_left hi).symm
  · have e : ∀ Q : Bytes, Q.length = O'.length → (A ++ (Q ++ B))[i]? = B[i - A.length - O'.length]? := by
      intro Q hQ
      rw [List.getElem?_append_right (by omega), List.getElem?_append_right (by omega), hQ]
    rw [e O h, e O' rfl]

/-- what `F` contains before its chunks when `md` is packed with the arguments `m` -/
def Written (E : Env μ) (md : Option μ) (m : MetadataArgs) (F : File μ) : Prop :=
  F.offsets = placeholder F.header ∧ F.header.format_version = 3 ∧ ∀ s, F.sec = some s → md.isSome ∧ ∃ t, E.dumps md = .ok t ∧
    (s.header.meta_codec = "None" ∧ s.body = encodeUtf8 t ∨
     s.header.meta_codec = "zlib" ∧ m.meta_codec = "zlib" ∧ E.zcompress (encodeUtf8 t) m.meta_level = .ok s.body)

theorem SecFor.written {E : Env μ} {md : Option μ} {m m' : MetadataArgs} {sec : Option (Section μ)} (h : SecFor E md m sec m')
    {hd : BloscpackHeader} (h3 : hd.format_version = 3) (chs : List (Bytes × Bytes)) : Written E md m (baseFile hd sec chs) := by
  refine ⟨rfl, h3, fun s hs => ?_⟩
  rcases h with ⟨-, rfl, -⟩ | ⟨S, s', hsome, -, hp, rfl, -⟩
  · cases hs
  · cases hs
    obtain ⟨t, t1, -, -, t2, -⟩ := hp.raw
    exact ⟨hsome, t, t1, t2⟩

/-- the writes of a packing run -/
theorem pack_log_cases {E : Env μ} (L : E.Laws) {data : Bytes} {cs : ChunkSizeArg} {md : Option μ} {a : BloscArgs}
    {b : BloscpackArgs} {m : MetadataArgs} {r : Except Err MetadataArgs} {fp : FP}
    (h : packBytes E data cs md a b m = (r, some fp)) :
    fp.log = [] ∨
    (∃ hd : BloscpackHeader, hd.metadata = true ∧ fp.log = seqLog 0 [hd.bytes] ∧ hd.OK ∧ hd.format_version = 3) ∨
    (∃ F : File μ, F.header.OK ∧ F.header.metadata = F.sec.isSome ∧ (∀ s, F.sec = some s → s.Valid E) ∧ 0 ≤ F.header.nchunks ∧
      2 ^ 63 ≤ offsetsLen F.header ∧ ∃ bss rest, fp.log = seqLog 0 bss ∧ bss.flatten.length = 32 + (F.secBytes E).length ∧
        F.bytes E = bss.flatten ++ rest ∧ Written E md m F) ∨
    (∃ F : File μ, F.Pre E ∧ F.junk = [] ∧ F.header.checksum = b.checksum ∧ (∀ p ∈ F.chunks, E.compress p.2 a = .ok p.1) ∧
      F.metadata = md ∧ (F.chunks.length = F.header.nchunks → F.data = data) ∧
      ∃ fronts tail, fronts.flatten = F.front E ∧
        fp.log = seqLog 0 (fronts ++ chunksWrites (F.impl E) (F.chunks.map (·.1))) ++ tail ∧
        (tail = [] ∨ ∃ raw : Bytes, raw.length ≤ F.offsets.length ∧ tail = [(32 + (F.secBytes E).length, raw)] ∧
          raw.length ≤ 8 * F.header.nchunks.toNat) ∧ Written E md m F) := by
  rcases packBytes_run L data cs md a b m with ⟨e, -, h1⟩ | ⟨n, c, l, h0, ⟨e, -, h1⟩ | ⟨hd, r, fp, init, tl, h1, h2, h3, h4, h5, h6, h7, h8, h9⟩⟩
  · rw [h1] at h; cases h
  · rw [h1] at h
    simp only [Prod.mk.injEq, Option.some.injEq] at h
    obtain ⟨rfl, rfl⟩ := h
    exact .inl rfl
  rw [h2] at h
  simp only [Prod.mk.injEq, Option.some.injEq] at h
  obtain ⟨rfl, rfl⟩ := h
  obtain ⟨g1, g2, g3, g4, g5, g6, g7, g8, g9, g10⟩ := packHeader_ok h1
  have hlen : (((init ++ [tl]).length : Nat) : Int) = hd.nchunks := by simp; omega
  have key : ∀ sec m' chs, SecFor E md m sec m' → offsetsLen hd < 2 ^ 63 → (chs.length : Int) ≤ hd.nchunks →
      (∀ p ∈ chs, E.compress p.2 a = .ok p.1) → ((chs.length : Int) = hd.nchunks → chs.map (·.2) = init ++ [tl]) → ∀ tail,
      fp.log = seqLog 0 (frontWrites E hd sec ++ chunksWrites ((baseFile hd sec chs).impl E) (chs.map (·.1))) ++ tail →
      (tail = [] ∨ ∃ raw : Bytes, raw.length ≤ (placeholder hd).length ∧ tail = [(32 + (optSecBytes E sec).length, raw)] ∧
        raw.length ≤ 8 * hd.nchunks.toNat) →
      ∃ F : File μ, F.Pre E ∧ F.junk = [] ∧ F.header.checksum = b.checksum ∧ (∀ p ∈ F.chunks, E.compress p.2 a = .ok p.1) ∧
        F.metadata = md ∧ (F.chunks.length = F.header.nchunks → F.data = data) ∧
        ∃ fronts tail, fronts.flatten = F.front E ∧
          fp.log = seqLog 0 (fronts ++ chunksWrites (F.impl E) (F.chunks.map (·.1))) ++ tail ∧
          (tail = [] ∨ ∃ raw : Bytes, raw.length ≤ F.offsets.length ∧ tail = [(32 + (F.secBytes E).length, raw)] ∧
            raw.length ≤ 8 * F.header.nchunks.toNat) ∧ Written E md m F := by
    intro sec m' chs hs hb hn hc hor tail hl htail
    refine ⟨baseFile hd sec chs, baseFile_pre L g1 g2 hs.valid (by rw [g4, hs.isSome]) hb hn hc, rfl, g5, hc, hs.metadata_eq rfl, ?_,
      frontWrites E hd sec, tail, frontWrites_flatten hs.valid chs, hl, ?_, hs.written g2 chs⟩
    · intro hx
      show (chs.map (·.2)).flatten = data
      rw [hor hx, h7]
    · have hsb : (baseFile hd sec chs).secBytes E = optSecBytes E sec := by cases sec <;> rfl
      rw [hsb]
      exact htail
  cases h3 with
  | metadata e _ hm he hfp => exact .inr (.inl ⟨hd, by rw [g4, hm], by rw [hfp]; rfl, g1, g2⟩)
  | space sec m' hs hb _ hfp =>
    refine .inr (.inr (.inl ⟨baseFile hd sec [], g1, by show hd.metadata = sec.isSome; rw [g4, hs.isSome], hs.valid,
      by show 0 ≤ hd.nchunks; omega, hb, [hd.bytes] ++ optSecWrites E sec,
      placeholder hd ++ ((baseFile hd sec []).body E ++ []), by rw [hfp]; rfl, ?_, ?_, hs.written g2 []⟩))
    all_goals
      have hsb : (baseFile hd sec []).secBytes E = optSecBytes E sec := by cases sec <;> rfl
      have hflat : ([hd.bytes] ++ optSecWrites E sec).flatten = hd.bytes ++ optSecBytes E sec := by
        rw [List.flatten_append, List.flatten_singleton, optSecWrites_flatten hs.valid]
    · rw [hflat, hsb, List.length_append, hd.bytes_length]
    · rw [hflat, ← hsb]
      simp [File.bytes, File.front, baseFile]
  | chunk sec m' hs hb chs d rest e hi hc he _ hfp =>
    have hlt : (chs.length : Int) < hd.nchunks := by
      have := congrArg List.length hi
      rw [List.length_append, List.length_map, List.length_cons] at this
      omega
    exact .inr (.inr (.inr (key sec m' chs hs hb (by omega) hc (by omega) [] (by rw [hfp, List.append_nil]; rfl) (.inl rfl))))
  | offset sec m' hs hb chs e hi hc ho he _ hdd hl =>
    have hcl : (chs.length : Int) ≤ hd.nchunks := by
      have := congrArg List.length hi
      rw [List.length_map] at this
      omega
    exact .inr (.inr (.inr (key sec m' chs hs hb hcl hc (fun _ => hi) [] (by rw [hl, List.append_nil]) (.inl rfl))))
  | plain sec m' hs hb chs hi hc ho _ hfp =>
    have hcl : (chs.length : Int) ≤ hd.nchunks := by
      have := congrArg List.length hi
      rw [List.length_map] at this
      omega
    exact .inr (.inr (.inr (key sec m' chs hs hb hcl hc (fun _ => hi) [] (by rw [hfp, List.append_nil]; rfl) (.inl rfl))))
  | full sec m' hs hb chs hi hc ho raw he _ hdd hl hp =>
    have hcl : (chs.length : Int) = hd.nchunks := by
      have := congrArg List.length hi
      rw [List.length_map] at this
      omega
    have hm0 : 0 ≤ hd.max_app_chunks := g1.2.2.2.2.2.2.1.1
    obtain ⟨-, hraw⟩ := (encodeOffsets_iff _ _).1 he
    have hrl : raw.length = 8 * chs.length := by rw [hraw, int64s_length, positions_length, List.length_map]
    have hpl : raw.length ≤ (placeholder hd).length := by
      rw [placeholder_length, offsetsLen, ho, hrl]
      simp only [if_true]
      omega
    exact .inr (.inr (.inr (key sec m' chs hs hb (by omega) hc (fun _ => hi) _ hl (.inr ⟨raw, hpl, rfl, by omega⟩))))

theorem optionsByte_bit0 (o m : Bool) : (Spec.optionsByte o m &&& 1 ≠ 0) ↔ o = true := by
  cases o <;> cases m <;> decide

/-- where the chunks start in any prefix of a file that is long enough to say so -/
theorem chunksStart_file {E : Env μ} (L : E.Laws) {F : File μ} (hok : F.header.OK) (hn : 0 ≤ F.header.nchunks)
    (hflag : F.header.metadata = F.sec.isSome) (hsec : ∀ s, F.sec = some s → s.Valid E) (k : Nat)
    (hle : Spec.chunksStart ((F.bytes E).take k) ≤ ((F.bytes E).take k).length) :
    Spec.chunksStart ((F.bytes E).take k) = 32 + (F.secBytes E).length + offsetsLen F.header := by
  rw [List.length_take] at hle
  have h32 : 32 ≤ Spec.offsetsStart Spec.checksumSizes ((F.bytes E).take k) := by unfold Spec.offsetsStart; split <;> omega
  have h32' : 32 ≤ k := by unfold Spec.chunksStart at hle; omega
  have hF : F.bytes E = F.header.bytes ++ (F.secBytes E ++ (F.offsets ++ (F.body E ++ F.junk))) := by
    simp [File.bytes, File.front]
  have hbl := F.header.bytes_length
  have h5b : ((F.bytes E).take k)[5]? = some (Spec.optionsByte F.header.offsets F.header.metadata) := by
    rw [List.getElem?_take_of_lt (by omega), hF, List.getElem?_append_left (by omega), header_byte5]
  have h64 : F.header.metadata = true → 64 ≤ k := by
    intro hm
    have : 64 ≤ Spec.offsetsStart Spec.checksumSizes ((F.bytes E).take k) := by
      unfold Spec.offsetsStart
      rw [h5b, Option.getD_some, if_pos (by rw [optionsByte_bit]; exact hm)]
      omega
    unfold Spec.chunksStart at hle
    omega
  unfold Spec.chunksStart
  rw [offsetsStart_file L hflag hsec k h32' h64, h5b, Option.getD_some]
  have hs1 : slice ((F.bytes E).take k) 16 24 = Spec.leBytes 8 F.header.nchunks := by
    rw [slice_take _ _ _ _ (by omega), hF, slice_append_left _ _ _ _ (by omega), (header_counts _).1]
  have hs2 : slice ((F.bytes E).take k) 24 32 = Spec.leBytes 8 F.header.max_app_chunks := by
    rw [slice_take _ _ _ _ (by omega), hF, slice_append_left _ _ _ _ (by omega), (header_counts _).2]
  obtain ⟨o1, o2, o3, o4, o5, o6, o7, o8, o9, o10⟩ := hok
  unfold offsetsLen
  cases ho : F.header.offsets with
  | false => rw [if_neg (by rw [optionsByte_bit0]; simp)]; rfl
  | true =>
    rw [if_pos (by rw [optionsByte_bit0]), hs1, hs2, leDecode_leBytes (by omega) (by omega), leDecode_leBytes (by omega) (by omega)]
    simp only [if_true]
    omega

/-- unpacking a shared file whose beginning is there, and whose chunks may not be there yet -/
theorem unpackShared_growing {E : Env μ} (L : E.Laws) {F : File μ} (hv : F.Pre E) (v : Nat → Nat → Option UInt8) (b : Nat)
    (h0 : ShowsAt v 0 0 F.header.bytes) (h1 : Shows v 32 (F.secBytes E))
    (h2 : ∀ k i, 32 + (F.secBytes E).length ≤ i → i < 32 + (F.secBytes E).length + F.offsets.length → (v k i).isSome)
    (h3 : ∀ k j, v k ((F.front E).length + j) = none ∨ v k ((F.front E).length + j) = (F.body E)[j]?)
    (h4 : (F.impl E).size = 0 ∨ ∀ xs q ys, F.chunks = xs ++ q :: ys → (∀ k k', k' < k →
      (v k' ((F.front E).length + (Spec.records (F.impl E).function (xs.map (·.1))).length + q.1.length - 1)).isSome →
      (v k ((F.front E).length + (Spec.records (F.impl E).function (xs.map (·.1))).length + q.1.length)).isSome) ∨
      Unmistakable E (F.impl E).function q.1) :
    (∃ e, (unpackShared E { view := v, bound := b }).1 = .error e) ∨
      F.chunks.length = F.header.nchunks ∧ unpackShared E { view := v, bound := b } = (.ok F.metadata, F.data) := by
  obtain ⟨k, os, h5⟩ := readBeginning_shows (b := b) L hv h0 h1 h2
  obtain ⟨hl1, hl2, -⟩ := File.lookup hv
  have ho : ({ data := [] } : FP) = Z [] [] [] := rfl
  have hle := hv.nchunks_le
  unfold unpackShared unpackFP
  rw [h5]
  simp only [hl1]
  unfold unpack
  rw [ho]
  rcases unpackLoop_growing (b := b) (k := k) (O := []) (lo := []) L (h := F.header) hl2 F.chunks hv.chunks_ok h3 h4 F.header.nchunks.toNat 0
    (by omega) with ⟨e, he⟩ | ⟨hn, s, lo, he⟩
  · left
    refine ⟨e, ?_⟩
    show Except.map _ (unpackLoop (compressedFPSource (σ := Shared) F.header (F.impl E)) (plainFPSinkPut E) F.header.nchunks.toNat 0 _).1 = _
    rw [he]
    rfl
  · right
    refine ⟨by omega, ?_⟩
    show (Except.map _ (unpackLoop (compressedFPSource (σ := Shared) F.header (F.impl E)) (plainFPSinkPut E) F.header.nchunks.toNat 0 _).1,
      (unpackLoop (compressedFPSource (σ := Shared) F.header (F.impl E)) (plainFPSinkPut E) F.header.nchunks.toNat 0 _).2.2.data) = _
    rw [he]
    simp [Except.map, File.data]

/-- what the assumption about digests says about the chunks of a file -/
theorem digests_noted {E : Env μ} (L : E.Laws) {F : File μ} {a : BloscArgs} {cs : String} {log : List (Nat × Bytes)} {fronts : List Bytes}
    {tail : List (Nat × Bytes)} {view : Nat → Nat → Option UInt8} (f1 : F.Pre E) (f3 : F.header.checksum = cs)
    (f4 : ∀ p ∈ F.chunks, E.compress p.2 a = .ok p.1) (f7 : fronts.flatten = F.front E)
    (hl : log = seqLog 0 (fronts ++ chunksWrites (F.impl E) (F.chunks.map (·.1))) ++ tail)
    (hdig : cs = "None" ∨
      Spec.DigestsNoted (fun c => ∃ x, E.compress x a = .ok c) (fun y => ∃ x, E.decompress y = .ok x) log view) :
    (F.impl E).size = 0 ∨ ∀ xs q ys, F.chunks = xs ++ q :: ys → (∀ k k', k' < k →
      (view k' ((F.front E).length + (Spec.records (F.impl E).function (xs.map (·.1))).length + q.1.length - 1)).isSome →
      (view k ((F.front E).length + (Spec.records (F.impl E).function (xs.map (·.1))).length + q.1.length)).isSome) ∨
      Unmistakable E (F.impl E).function q.1 := by
  obtain ⟨-, hi, hnm⟩ := File.lookup f1
  rcases hdig with hdig | hdig
  · left
    rw [Hash.size_zero hi, hnm.1, f3, hdig]
  · by_cases hz : (F.impl E).size = 0
    · exact .inl hz
    right
    intro xs q ys hch
    have hdl := Hash.size_eq L hi q.1
    have hsplit : log = (seqLog 0 (fronts ++ chunksWrites (F.impl E) (xs.map (·.1)))) ++
        ((F.front E).length + (Spec.records (F.impl E).function (xs.map (·.1))).length, q.1) ::
        ((F.front E).length + (Spec.records (F.impl E).function (xs.map (·.1))).length + q.1.length, (F.impl E).function q.1) ::
        (seqLog ((F.front E).length + (Spec.records (F.impl E).function (xs.map (·.1))).length + q.1.length +
          ((F.impl E).function q.1).length) (chunksWrites (F.impl E) (ys.map (·.1))) ++ tail) := by
      have hw : chunksWrites (F.impl E) (F.chunks.map (·.1)) = chunksWrites (F.impl E) (xs.map (·.1)) ++
          (q.1 :: (F.impl E).function q.1 :: chunksWrites (F.impl E) (ys.map (·.1))) := by
        rw [hch]
        have : chunkWrites (F.impl E) q.1 = [q.1, (F.impl E).function q.1] := by
          unfold chunkWrites
          rw [if_pos (by omega)]
        simp [chunksWrites, this]
      rw [hl, hw, ← List.append_assoc fronts, seqLog_append]
      simp only [seqLog, List.flatten_append, f7, chunksWrites_flatten, List.length_append, Nat.zero_add]
      simp
    refine (hdig _ _ q.1 _ _ ⟨q.2, f4 q (by rw [hch]; simp)⟩ hsplit).imp id fun hno y hy => ?_
    cases hdc : E.decompress y with
    | error e => exact ⟨e, rfl⟩
    | ok x => exact absurd ⟨x, hdc⟩ (hno y hy)

/-! ### C106 -/

/-- C106: a process that reads an archive while it is being packed gets an exception, or exactly the data and the metadata, if it does not
start before the header, the metadata and the space for the offsets have been written, and if (unless there is no checksum) it does not
catch a chunk without its digest, or else this digest is not the beginning of something that blosc decompresses. This includes packing
runs that end with an exception of their own. -/
theorem C106_read_while_packing_partial (E : Env μ) (L : E.Laws) (data : Bytes) (cs : ChunkSizeArg) (md : Option μ) (a : BloscArgs)
    (b : BloscpackArgs) (m : MetadataArgs) (r : Except Err MetadataArgs) (fp : FP)
    (h : packBytes E data cs md a b m = (r, some fp)) (view : Nat → Nat → Option UInt8) (hseen : Spec.SeenPacking fp.log view)
    (hdig : b.checksum = "None" ∨
      Spec.DigestsNoted (fun c => ∃ x, E.compress x a = .ok c) (fun y => ∃ x, E.decompress y = .ok x) fp.log view) (bound : Nat) :
    (∃ e, (unpackShared E { view := view, bound := bound }).1 = .error e) ∨
      unpackShared E { view := view, bound := bound } = (.ok md, data) := by
  obtain ⟨done, todo, hlog, hstart, hview⟩ := hseen
  have hcr : ∀ k i, ∃ d, Spec.Crashed [] fp.log d ∧ (Spec.replay [] done).length ≤ d.length ∧ view k i = d[i]? := by
    intro k i
    obtain ⟨d, h1, h2⟩ := hview k i
    exact ⟨d, by rw [hlog]; exact crashed_later h1, crashed_length_le h1, h2⟩
  have hd0 : Spec.Crashed [] fp.log (Spec.replay [] done) := by rw [hlog]; exact crashed_before _ _
  clear hview hlog
  generalize Spec.replay [] done = d0 at *
  have h32 : 32 ≤ Spec.offsetsStart Spec.checksumSizes d0 := by unfold Spec.offsetsStart; split <;> omega
  have h32' : 32 ≤ d0.length := by unfold Spec.chunksStart at hstart; omega
  rcases pack_log_cases L h with hl | ⟨hd, hm, hl, -⟩ | ⟨F, f1, f2, f3, f4, f5, bss, rest, hl, f6, f7, -⟩ |
    ⟨F, f1, f2, f3, f4, f5, f6, fronts, tail, f7, hl, f8, -⟩
  · rw [hl] at hd0
    rcases hd0 with rfl | ⟨_, _, _, _, _, hx, -⟩
    · simp at h32'
    · simp at hx
  · exfalso
    rw [hl] at hd0
    obtain ⟨k, hk, rfl⟩ := crashed_seqLog hd0
    simp only [List.flatten_singleton] at *
    rw [hd.bytes_length] at hk
    rw [List.length_take, hd.bytes_length] at h32' hstart
    have hk : k = 32 := by omega
    subst hk
    rw [List.take_of_length_le (by rw [hd.bytes_length]; omega)] at hstart
    have : 64 ≤ Spec.offsetsStart Spec.checksumSizes hd.bytes := by
      unfold Spec.offsetsStart
      rw [header_byte5, Option.getD_some, if_pos (by rw [optionsByte_bit]; exact hm)]
      omega
    unfold Spec.chunksStart at hstart
    omega
  · exfalso
    rw [hl] at hd0
    obtain ⟨k, hk, rfl⟩ := crashed_seqLog hd0
    have he : bss.flatten.take k = (F.bytes E).take k := by rw [f7, List.take_append_of_le_length hk]
    rw [he] at hstart
    have := chunksStart_file L f1 f4 f2 f3 k hstart
    rw [this, List.length_take] at hstart
    omega
  · have hflat : (fronts ++ chunksWrites (F.impl E) (F.chunks.map (·.1))).flatten = F.bytes E := by
      rw [List.flatten_append, f7, chunksWrites_flatten]
      simp [File.bytes, File.body, f2]
    have hF : F.bytes E = (F.header.bytes ++ F.secBytes E) ++ (F.offsets ++ F.body E) := by
      simp [File.bytes, File.front, f2]
    have hbl := F.header.bytes_length
    have hfl : (F.front E).length = 32 + (F.secBytes E).length + F.offsets.length := by
      simp [File.front, hbl, Nat.add_assoc]
    -- everything that is ever in the file
    have hshape : ∀ d, Spec.Crashed [] fp.log d → (∃ k, d = (F.bytes E).take k) ∨
        ∃ O : Bytes, O.length = F.offsets.length ∧ d = (F.header.bytes ++ F.secBytes E) ++ (O ++ F.body E) := by
      intro d hd
      rw [hl] at hd
      have hbase : Spec.Crashed [] (seqLog 0 (fronts ++ chunksWrites (F.impl E) (F.chunks.map (·.1)))) d →
          ∃ k, d = (F.bytes E).take k := by
        intro hx
        obtain ⟨k, -, rfl⟩ := crashed_seqLog hx
        exact ⟨k, by rw [hflat]⟩
      rcases f8 with rfl | ⟨raw, hraw, rfl, -⟩
      · rw [List.append_nil] at hd
        exact .inl (hbase hd)
      · rcases crashed_snoc hd with hd | ⟨t, rfl⟩
        · exact .inl (hbase hd)
        · right
          have hr := replay_seqLog [] (fronts ++ chunksWrites (F.impl E) (F.chunks.map (·.1)))
          simp only [List.length_nil, List.nil_append] at hr
          have hpos : 32 + (F.secBytes E).length = (F.header.bytes ++ F.secBytes E).length := by rw [List.length_append, hbl]
          rw [hr, hflat, hF, hpos, overlay_mid _ _ _ _ (by rw [List.length_take]; omega)]
          refine ⟨raw.take t ++ F.offsets.drop (raw.take t).length, ?_, rfl⟩
          rw [List.length_append, List.length_drop, List.length_take]
          omega
    have hlen0 : (F.front E).length ≤ d0.length := by
      rcases hshape _ hd0 with ⟨k, rfl⟩ | ⟨O, hO, rfl⟩
      · rw [hfl, f1.offsets_len, ← chunksStart_file L f1.ok (by have := f1.nchunks_le; omega) f1.meta_flag f1.sec_ok k hstart]
        exact hstart
      · simp [hfl, hbl, hO]
        omega
    -- what is found where
    have hsame : ∀ k i, (i < 32 + (F.secBytes E).length ∨ (F.front E).length ≤ i) →
        (view k i = none ∧ (F.front E).length ≤ i) ∨ view k i = (F.bytes E)[i]? := by
      intro k i hi
      obtain ⟨d, h1, h2, h3⟩ := hcr k i
      rw [h3]
      rcases hshape d h1 with ⟨j, rfl⟩ | ⟨O, hO, rfl⟩
      · by_cases hij : i < j
        · exact .inr (List.getElem?_take_of_lt hij)
        · rw [List.length_take] at h2
          exact .inl ⟨by rw [List.getElem?_eq_none]; rw [List.length_take]; omega, by omega⟩
      · right
        rw [hF]
        have hab : (F.header.bytes ++ F.secBytes E).length = 32 + (F.secBytes E).length := by rw [List.length_append, hbl]
        exact spliced_same _ _ _ _ hO i (by omega)
    refine (unpackShared_growing L f1 view bound ?_ ?_ ?_ ?_ ?_).imp id (fun ⟨hn, he⟩ => by rw [f5, f6 hn] at he; exact he)
    · intro j hj
      rcases hsame 0 (0 + j) (by omega) with ⟨-, hx⟩ | hx
      · omega
      · rw [hx, Nat.zero_add, hF, List.append_assoc, List.getElem?_append_left hj]
    · intro k j hj
      rcases hsame k (32 + j) (by omega) with ⟨-, hx⟩ | hx
      · omega
      · rw [hx, hF, List.append_assoc, List.getElem?_append_right (by omega), List.getElem?_append_left (by omega)]
        congr 1; omega
    · intro k i h1 h2
      obtain ⟨d, -, h3, h4⟩ := hcr k i
      rw [h4, List.getElem?_eq_getElem (by omega)]
      rfl
    · intro k j
      rcases hsame k ((F.front E).length + j) (by omega) with ⟨hx, -⟩ | hx
      · exact .inl hx
      · right
        rw [hx, show F.bytes E = F.front E ++ F.body E by simp [File.bytes, f2], List.getElem?_append_right (by omega), Nat.add_sub_cancel_left]
    · exact digests_noted L f1 f3 f4 f7 hl hdig

/-- a reader that finds the file as it is after `n k` writes when it calls `read` for the `k`-th time -/
theorem seenPacking_of_counts (log : List (Nat × Bytes)) (n : Nat → Nat) (N : Nat) (hN : ∀ k, N ≤ n k)
    (h : Spec.chunksStart (Spec.replay [] (log.take N)) ≤ (Spec.replay [] (log.take N)).length) :
    Spec.SeenPacking log (fun k i => (Spec.replay [] (log.take (n k)))[i]?) := by
  refine ⟨log.take N, log.drop N, (List.take_append_drop N log).symm, h, fun k i => ⟨_, ?_, rfl⟩⟩
  have e : log.take (n k) = log.take N ++ (log.drop N).take (n k - N) := by
    rw [List.take_drop, show N + (n k - N) = n k by have := hN k; omega]
    conv => lhs; rw [← List.take_append_drop N (log.take (n k)), List.take_take, Nat.min_eq_left (hN k)]
  rw [e, replay_append]
  have := crashed_before (d := Spec.replay [] (log.take N)) ((log.drop N).take (n k - N)) ((log.drop N).drop (n k - N))
  rwa [List.take_append_drop] at this

/-- the writes of a run over two chunks with metadata, checksums and offsets -/
def growingLog : List (Nat × Bytes) :=
  ((packBytes Toy.env [1, 2, 3] (.int 2) (some 5) {} { max_app_chunks := .int 1 }
      { max_meta_size := .int 12, meta_checksum := "None" }).2.map (·.log)).getD []

/-- of the 17 writes, the first 12 are enough to start reading -/
example : growingLog.length = 17 ∧ Spec.chunksStart (Spec.replay [] (growingLog.take 12)) = 100 ∧
    (Spec.replay [] (growingLog.take 12)).length = 100 := by
  decide +kernel

/-- a reader that finds the first 12 writes when it reads the header, and everything afterwards, meets the hypotheses -/
example : Spec.SeenPacking growingLog (fun k i => (Spec.replay [] (growingLog.take (if k = 0 then 12 else 17)))[i]?) ∧
    Spec.DigestsNoted (fun c => ∃ x, Toy.env.compress x {} = .ok c) (fun y => ∃ x, Toy.env.decompress y = .ok x) growingLog
      (fun k i => (Spec.replay [] (growingLog.take (if k = 0 then 12 else 17)))[i]?) := by
  refine ⟨seenPacking_of_counts _ _ 12 (fun k => by split <;> omega) (by decide +kernel), ?_⟩
  intro pre p c D post _ hl
  refine .inl fun k k' hk _ => ?_
  have h1 : ∀ w ∈ growingLog, w.1 < (Spec.replay [] (growingLog.take 17)).length := by decide +kernel
  have h2 := h1 (p + c.length, D) (by rw [hl]; simp)
  simp only [show k ≠ 0 by omega, if_false]
  rw [List.getElem?_eq_getElem h2]
  rfl

/-- that reader gets the data, one that never sees the second chunk an exception and the first chunk -/
example : ((unpackShared Toy.env { view := fun k i => (Spec.replay [] (growingLog.take (if k = 0 then 12 else 17)))[i]?, bound := 200 }).1.toOption,
      (unpackShared Toy.env { view := fun k i => (Spec.replay [] (growingLog.take (if k = 0 then 12 else 17)))[i]?, bound := 200 }).2) =
    (some (some 5), [1, 2, 3]) := by
  decide +kernel

example : ((unpackShared Toy.env { view := fun k i => (Spec.replay [] (growingLog.take (if k = 0 then 12 else 14)))[i]?, bound := 200 }).1.toOption,
      (unpackShared Toy.env { view := fun k i => (Spec.replay [] (growingLog.take (if k = 0 then 12 else 14)))[i]?, bound := 200 }).2) =
    (none, [1, 2]) := by
  decide +kernel

/-- one that does not find the digest of the first chunk accepts the chunk, and does not find the second one when the digest is there -/
example : ((unpackShared Toy.env { view := fun k i => (Spec.replay [] (growingLog.take (if k < 7 then 13 else 17)))[i]?, bound := 200 }).1.toOption,
      (unpackShared Toy.env { view := fun k i => (Spec.replay [] (growingLog.take (if k < 7 then 13 else 17)))[i]?, bound := 200 }).2) =
    (none, [1, 2]) := by
  decide +kernel

end Bloscpack
