import Verif.Props.RoundTrip
import Verif.Props.Metadata
import Verif.Props.Args
import Verif.Examples.Toy
/-
C76: the settings, and the documented defaults, in the headers of a packed file.
-/
namespace Bloscpack
variable {μ : Type}

/-- what a metadata section says about itself when it was written with the settings `m` -/
def Spec.SectionSettings (E : Env μ) (md : Option μ) (m : MetadataArgs) (mh : MetadataHeader) : Prop :=
  ∃ s body, E.dumps md = .ok s ∧ mh.magic_format = [74, 83, 79, 78] ∧ mh.meta_checksum = m.meta_checksum ∧ mh.meta_level = m.meta_level ∧
    Spec.StoredAs E m.meta_codec m.meta_level (encodeUtf8 s) body mh.meta_codec ∧ mh.meta_size = (encodeUtf8 s).length ∧
    mh.meta_comp_size = body.length ∧ m.effectiveMaxMetaSize (encodeUtf8 s).length = .ok mh.max_meta_size ∧ mh.user_codec = []

/-- how many append chunks a successful normalisation gives -/
theorem handleMaxApps_ok {n : Int} {x : MaxAppArg} {v : Int} (hn : 0 ≤ n) (h : handleMaxApps true n x = .ok v) :
    ∃ w, Spec.RequestedApps x n w ∧ v = min w (2 ^ 63 - 1 - n) := by
  have hM := MAX_CHUNKS_eq
  unfold handleMaxApps at h
  rw [Except.bind_ok_iff] at h
  obtain ⟨_, -, h⟩ := h
  rw [if_pos ⟨rfl, by omega⟩, Except.bind_ok_iff] at h
  obtain ⟨r, hr, h⟩ := h
  refine ⟨r, ?_, ?_⟩
  · unfold MaxAppArg.eval at hr
    split at hr
    · rename_i f
      cases hf : f n with
      | none => rw [hf] at hr; cases hr
      | some i =>
        rw [hf] at hr
        simp only at hr
        split at hr
        · cases hr
        · cases hr; exact .inr ⟨f, rfl, hf⟩
    · rw [Except.bind_ok_iff] at hr
      obtain ⟨_, -, hr⟩ := hr
      cases hr; exact .inl rfl
    · cases hr
  · rw [hM] at h
    split at h
    · cases h; rw [Int.min_eq_right (by omega)]
    · cases h; rw [Int.min_eq_left (by omega)]

theorem Prepared.settings {E : Env μ} {md : Option μ} {m : MetadataArgs} {S : MetaSection} {sec : Section μ}
    (hS : prepareMetadata E md m = .ok S) (hs : Prepared E md m S sec) : Spec.SectionSettings E md m sec.header := by
  obtain ⟨s, r1, r2, r3, r4, r5, r6⟩ := hs.raw
  refine ⟨s, sec.body, r1, hs.valid.magic, hs.checksum, hs.level, ?_, r2, hs.valid.size, r6, hs.valid.user⟩
  rcases r4 with ⟨q1, q2⟩ | ⟨q1, q2, q3⟩
  · rcases r5 q1 with q3 | ⟨c, q3, q4⟩
    · exact .inl ⟨q3, q2, q1⟩
    · by_cases hc : m.meta_codec = "None"
      · exact .inl ⟨hc, q2, q1⟩
      · refine .inr ⟨?_, c, q3, .inr ⟨q4, q2, q1⟩⟩
        unfold prepareMetadata at hS
        simp only [args_keys_ok, Except.ok_bind'] at hS
        rw [Except.bind_ok_iff] at hS
        obtain ⟨_, -, hS⟩ := hS
        rw [Except.bind_ok_iff] at hS
        obtain ⟨s', -, hS⟩ := hS
        rw [Except.bind_ok_iff] at hS
        obtain ⟨_, hS, -⟩ := hS
        have : m.shouldCompress = true := by simpa [MetadataArgs.shouldCompress] using hc
        rw [if_pos this, Except.bind_ok_iff] at hS
        obtain ⟨_, hS, -⟩ := hS
        unfold codecCompress at hS
        rw [if_neg hc] at hS
        split at hS
        · assumption
        · cases hS
  · exact .inr ⟨q2, sec.body, q3, .inl ⟨r3, rfl, q1⟩⟩

/-- C76: the headers of a packed file are what was asked for. The format version is 3, checksum, typesize, and whether there are offsets
are those of the settings, the chunk size is the requested one (or the size of the data, if that is smaller), there are as many chunks as
the data needs, and as many append chunks as were requested (as far as there is room for them); without offsets there are none. The
metadata header, present if there are metadata, has the requested checksum, level, codec and room. -/
theorem C76_settings (E : Env μ) (L : E.Laws) (data : Bytes) (cs : ChunkSizeArg) (md : Option μ) (a : BloscArgs)
    (b : BloscpackArgs) (m : MetadataArgs) (out : Bytes) (h : packBytesToBytes E data cs md a b m = .ok out) :
    ∃ hd mh os fp, readBeginning E { data := out } = (.ok (hd, md, mh, os), fp) ∧
      hd.format_version = 3 ∧ hd.offsets = b.offsets ∧ hd.metadata = md.isSome ∧ hd.checksum = b.checksum ∧ hd.typesize = a.typesize ∧
      (data = [] → hd.chunk_size = 0 ∧ hd.nchunks = 1 ∧ hd.last_chunk = 0) ∧
      (data ≠ [] → ∃ v, Spec.RequestedSize cs v ∧ hd.chunk_size = min v data.length ∧ 1 ≤ hd.last_chunk ∧ hd.last_chunk ≤ hd.chunk_size ∧
        hd.chunk_size * (hd.nchunks - 1) + hd.last_chunk = data.length) ∧
      (b.offsets = true → ∃ w, Spec.RequestedApps b.max_app_chunks hd.nchunks w ∧ hd.max_app_chunks = min w (2 ^ 63 - 1 - hd.nchunks)) ∧
      (b.offsets = false → hd.max_app_chunks = 0) ∧
      (md = none → mh = none) ∧ (md.isSome → ∃ x, mh = some x ∧ Spec.SectionSettings E md m x) := by
  obtain ⟨F, n, c, l, m', rfl, h1, hj, rfl, rfl, hsec, hcalc, h2, h3⟩ := packBytesToBytes_ok L h
  obtain ⟨g1, g2, g3, g4, g5, g6, g7, g8, g9, g10⟩ := packHeader_ok h2
  obtain ⟨os, hr, -⟩ := readBeginning_file L h1.toPre (F.body E ++ F.junk) []
  obtain ⟨c1, c2, c3, c4, c5, c6, c7⟩ := C02_chunking_covers _ _ _ _ _ hcalc
  have hr' : readBeginning E { data := F.bytes E } = _ := hr
  refine ⟨F.header, F.sec.map (·.header), os, _, hr', g2, g3, g4, g5, g6, ?_, ?_, ?_, ?_, ?_, ?_⟩
  · intro hd
    have := c6 (by rw [hd]; rfl)
    rw [g7, g8, g9]; omega
  · intro hd
    obtain ⟨d1, v, d2, d3, d4, d5⟩ := c7 (by simpa using hd)
    refine ⟨v, d2, ?_, by omega, by omega, by rw [g7, g8, g9]; exact c1⟩
    rw [g7]
    by_cases hv : v ≤ F.data.length
    · rw [d4 hv, Int.min_eq_left hv]
    · have := d5 1 (by omega)
      have hn : n = 1 := by omega
      rw [hn] at c1
      simp at c1
      omega
  · intro hb
    rw [hb] at g10
    rw [g9]
    exact handleMaxApps_ok (by omega) g10
  · intro hb
    rw [C32_ignored _ _ _ (by omega) c3 (.inl hb)] at g10
    exact (Except.ok.inj g10).symm
  · intro hm
    rcases hsec with ⟨-, k, -⟩ | ⟨S, s, k, -⟩
    · rw [k]; rfl
    · rw [hm] at k; cases k
  · intro hm
    rcases hsec with ⟨k, -, -⟩ | ⟨S, s, k, k1, k2, k3, k4⟩
    · rw [k] at hm; cases hm
    · rw [k3]
      exact ⟨s.header, rfl, k2.settings k1⟩

theorem requested_default {v : Int} (h : Spec.RequestedSize DEFAULT_CHUNK_SIZE v) : v = 1048576 := by
  have h1 : reversePretty ['1', 'M'] = .ok 1048576 := by decide +kernel
  rcases h with h | ⟨s, h, hs⟩
  · cases h
  · have : s = ['1', 'M'] := (ChunkSizeArg.str.inj h).symm
    rw [this, h1] at hs
    exact (Except.ok.inj hs).symm

theorem default_chunks {N : Nat} {n k c l : Int} (hn : n = max 1 (((N + 1048575) / 1048576 : Nat) : Int)) (c1 : c * (k - 1) + l = N) (c4 : l ≤ c)
    (c5 : c ≤ N) (d1 : 1 ≤ l) (d4 : (1048576 : Int) ≤ N → c = 1048576) (d5 : ¬ (1048576 : Int) ≤ N → k ≤ 1) (c2 : 1 ≤ k) :
    k = n ∧ c = min (N : Int) 1048576 ∧ l = N - (n - 1) * 1048576 := by
  by_cases hle : (1048576 : Int) ≤ N
  · rw [d4 hle] at c1 c4 c5 ⊢
    omega
  · have hk1 : k = 1 := by have := d5 hle; omega
    rw [hk1, show (1 : Int) - 1 = 0 from rfl, Int.mul_zero] at c1
    omega

theorem default_small {N : Nat} {n : Int} (hn : n = max 1 (((N + 1048575) / 1048576 : Nat) : Int)) (h : N < 2 ^ 63) : n < 2 ^ 59 := by
  omega

theorem default_empty {N : Nat} {n : Int} (hn : n = max 1 (((N + 1048575) / 1048576 : Nat) : Int)) (hz : (N : Int) = 0) :
    1 = n ∧ (0 : Int) = min (N : Int) 1048576 ∧ 0 = N - (n - 1) * 1048576 := by
  omega

/-- C76: the documented defaults. Packing with no other settings than the metadata gives a file with offsets, adler32 checksums, typesize 8,
chunks of 1 MiB (fewer bytes in the last one, or if there are fewer in all), and room for ten times as many chunks to be appended; the
chunks are compressed with blosclz, level 7 and shuffling, and each is followed by its digest; the metadata, if any, are stored as JSON
with an adler32 checksum, compressed with zlib at level 6 unless this makes them longer, with ten times the room they need. -/
theorem C76_defaults (E : Env μ) (L : E.Laws) (data : Bytes) (md : Option μ) (out : Bytes) (hsize : data.length < 2 ^ 63)
    (h : packBytesToBytes E data (metadata := md) = .ok out) (n : Int)
    (hnum : n = max 1 (((data.length + 1048575) / 1048576 : Nat) : Int)) :
    ∃ mh os fp, readBeginning E { data := out } =
        (.ok ({ format_version := 3, offsets := true, metadata := md.isSome, checksum := "adler32", typesize := 8,
                chunk_size := min data.length 1048576, last_chunk := data.length - (n - 1) * 1048576, nchunks := n,
                max_app_chunks := 10 * n }, md, mh, os), fp) ∧
      (∃ (front : Bytes) (chunks : List Bytes), out = front ++ Spec.records (zlibHash adler32) chunks ∧
        (chunks.length : Int) = n ∧
        ∀ i (hi : i < chunks.length), E.compress (slice data (i * 1048576) ((i + 1) * 1048576))
          { typesize := 8, clevel := 7, shuffle := 1, cname := "blosclz" } = .ok chunks[i]) ∧
      (md = none → mh = none) ∧
      (md.isSome → ∃ x s body, mh = some x ∧ E.dumps md = .ok s ∧ x.magic_format = [74, 83, 79, 78] ∧ x.meta_checksum = "adler32" ∧
        x.meta_level = 6 ∧ Spec.StoredAs E "zlib" 6 (encodeUtf8 s) body x.meta_codec ∧ x.meta_size = (encodeUtf8 s).length ∧
        x.max_meta_size = 10 * (encodeUtf8 s).length ∧ x.meta_comp_size = body.length) := by
  obtain ⟨F, k, c, l, m', rfl, h1, hj, rfl, rfl, hsec, hcalc, h2, h3⟩ := packBytesToBytes_ok L h
  obtain ⟨g1, g2, g3, g4, g5, g6, g7, g8, g9, g10⟩ := packHeader_ok h2
  obtain ⟨os, hr, -⟩ := readBeginning_file L h1.toPre (F.body E ++ F.junk) []
  obtain ⟨c1, c2, c3, c4, c5, c6, c7⟩ := C02_chunking_covers _ _ _ _ _ hcalc
  have hk : k = n ∧ c = min (F.data.length : Int) 1048576 ∧ l = F.data.length - (n - 1) * 1048576 := by
    by_cases hz : (F.data.length : Int) = 0
    · obtain ⟨rfl, rfl, rfl⟩ := c6 hz
      exact default_empty hnum hz
    · obtain ⟨d1, v, d2, d3, d4, d5⟩ := c7 hz
      rw [requested_default d2] at d3 d4 d5
      exact default_chunks hnum c1 c4 c5 d1 d4 (fun h => d5 1 (by omega)) c2
  obtain ⟨k1, k2, k3⟩ := hk
  have hn : n < 2 ^ 59 := default_small hnum hsize
  have happ : F.header.max_app_chunks = 10 * n := by
    obtain ⟨w, w1, w2⟩ := handleMaxApps_ok (by omega) g10
    rcases w1 with w1 | ⟨f, w1, w3⟩
    · cases w1
    · cases w1; cases w3
      rw [w2, k1]; omega
  have hhd : F.header = (⟨3, true, F.metadata.isSome, "adler32", 8, min F.data.length 1048576, F.data.length - (n - 1) * 1048576, n,
      10 * n⟩ : BloscpackHeader) := by
    rw [← g4, ← k2, ← k3, ← happ, ← k1]
    cases hF : F.header
    rw [hF] at g2 g3 g5 g6 g7 g8 g9
    simp only at g2 g3 g5 g6 g7 g8 g9
    rw [g2, g3, g5, g6, g7, g8, g9]
  rw [hhd] at hr
  have himpl : (F.impl E).function = zlibHash adler32 := by
    have := (File.lookup h1.toPre).1
    unfold BloscpackHeader.checksumImpl at this
    rw [g5] at this
    exact congrArg Hash.function (Except.ok.inj this).symm
  have hr' : readBeginning E { data := F.bytes E } = _ := hr
  refine ⟨F.sec.map (·.header), os, _, hr', ⟨F.front E, F.chunks.map (·.1), ?_, ?_, ?_⟩, ?_, ?_⟩
  · unfold File.bytes File.body
    rw [hj, List.append_nil, himpl]
  · rw [List.length_map, ← h1.nchunks, g9, k1]
  · intro i hi
    have hi' : i < F.chunks.length := by simpa using hi
    have hs := h1.chunk_slice i hi'
    have := h3 _ (List.getElem_mem hi')
    rw [List.getElem_map, ← this, hs, g7, k2]
    congr 1
    by_cases hle : (1048576 : Int) ≤ F.data.length
    · rw [Int.min_eq_right hle, show (1048576 : Int).toNat = 1048576 from rfl]
    · have hi0 : i = 0 := by
        have := h1.nchunks
        omega
      subst hi0
      rw [Int.min_eq_left (by omega)]
      simp only [Nat.zero_mul, Nat.zero_add, Nat.one_mul, Int.toNat_natCast]
      rw [slice_all _ _ (Nat.le_refl _), slice_all _ _ (by omega)]
  · intro hm
    rcases hsec with ⟨-, q, -⟩ | ⟨S, s, q, -⟩
    · rw [q]; rfl
    · rw [hm] at q; cases q
  · intro hm
    rcases hsec with ⟨q, -, -⟩ | ⟨S, s, q, q1, q2, q3, q4⟩
    · rw [q] at hm; cases hm
    · rw [q3]
      obtain ⟨t, body, t1, t2, t3, t4, t5, t6, t7, t8, t9⟩ := q2.settings q1
      refine ⟨s.header, t, body, rfl, t1, t2, t3, t4, t5, t6, ?_, t7⟩
      exact (Except.ok.inj t8).symm

-- a default packing run of the toy environment, with metadata
example : (match packBytesToBytes Toy.env [1, 2, 3] (metadata := some 9) with
    | .ok out => (match readBeginning Toy.env { data := out } with
      | (.ok (hd, _, mh, _), _) => decide (hd = ⟨3, true, true, "adler32", 8, 3, 3, 1, 10⟩ ∧ mh.isSome)
      | _ => false)
    | .error _ => false) = true := by decide +kernel

-- other settings: two chunks, five append chunks, crc32
example : (match packBytesToBytes Toy.env [1, 2, 3] (.int 2) none { typesize := 4 } { checksum := "crc32", max_app_chunks := .int 5 } with
    | .ok out => (match readBeginning Toy.env { data := out } with
      | (.ok (hd, _, mh, _), _) => decide (hd = ⟨3, true, false, "crc32", 4, 2, 1, 2, 5⟩ ∧ mh = none)
      | _ => false)
    | .error _ => false) = true := by decide +kernel

end Bloscpack
