import Verif.Props.Crash
import Verif.Props.RoundTrip
import Verif.Examples.Toy

/-! C90: every number of appendable chunks that the settings and the header admit can be packed with. Violated from 2^60 on. -/
namespace Bloscpack
variable {μ : Type}

/-- C90 is violated: whatever the data, metadata and settings, if packing works without room for appends, then with room for 2^60 chunks or
more, which the settings and the header accept, it raises `OverflowError`; and the output file is left with a header that no reader accepts. -/
theorem C90_violated (E : Env μ) (L : E.Laws) (data : Bytes) (cs : ChunkSizeArg) (md : Option μ) (a : BloscArgs) (b : BloscpackArgs)
    (m : MetadataArgs) (ho : b.offsets = true) (x : Bytes) (hx : packBytesToBytes E data cs md a { b with max_app_chunks := .int 0 } m = .ok x)
    (k : Int) (hk : 2 ^ 60 ≤ k) (hk' : k ≤ 2 ^ 63 - 1) :
    packBytesToBytes E data cs md a { b with max_app_chunks := .int k } m = .error .overflowError ∧
    ∀ (fs : FS) (out_file : String), fs.canWrite out_file = true →
      ∃ left, packBytesToFile E fs data out_file cs md a { b with max_app_chunks := .int k } m = (.error .overflowError, fs.put out_file left) ∧
        left.take 16 = x.take 16 ∧ ∃ e, unpackBytesFromBytes E left = .error e := by
  obtain ⟨F, n, c, l, m', rfl, -, -, -, -, hsec, hcalc, hph, -⟩ := packBytesToBytes_ok L hx
  obtain ⟨g1, g2, g3, g4, g5, g6, g7, g8, g9, g10⟩ := packHeader_ok hph
  have hn1 : 1 ≤ n := (C02_chunking_covers _ _ _ _ _ hcalc).2.1
  have hnM : n ≤ 2 ^ 63 - 1 := by have := g1.2.2.2.2.2.1.2; omega
  have hmax : handleMaxApps b.offsets n (.int k) = .ok (min k (2 ^ 63 - 1 - n)) :=
    C32_exact b.offsets n (.int k) k (by omega) hnM ho (.inl rfl) (by omega) (fun i hi => by cases hi; exact hk')
  have hph' : packHeader n c l md a { b with max_app_chunks := .int k } = .ok { F.header with max_app_chunks := min k (2 ^ 63 - 1 - n) } := by
    unfold packHeader at hph ⊢
    obtain ⟨mx, -, h2⟩ := Except.bind_ok_iff.1 hph
    obtain ⟨h3, h4⟩ := (BloscpackHeader.new_iff _ _).1 h2
    simp only [hmax, Except.ok_bind']
    rw [h4]
    refine (BloscpackHeader.new_iff _ _).2 ⟨?_, rfl⟩
    obtain ⟨q1, q2, q3, q4, q5, q6, q7, q8, q9, q10⟩ := h3
    refine ⟨q1, q2, q3, q4, q5, q6, ?_, ?_, ?_, q10⟩ <;> simp only <;> omega
  generalize hh : ({ F.header with max_app_chunks := min k (2 ^ 63 - 1 - n) } : BloscpackHeader) = h at hph'
  have hlen : 2 ^ 63 ≤ offsetsLen h := by
    rw [← hh]
    unfold offsetsLen
    rw [if_pos (by rw [← ho, ← g3])]
    simp only [g9]
    omega
  obtain ⟨hok, hver, -, -, -, -, -, -, hnn, -⟩ := packHeader_ok hph'
  have hrun : ∃ fp, packBytes E data cs md a { b with max_app_chunks := .int k } m = (.error .overflowError, some fp) ∧
      ∃ sec : Option (Section μ), fp.data = ({ header := h, sec := sec, offsets := [], chunks := [], junk := [] } : File μ).bytes E := by
    rcases packBytes_run L data cs md a { b with max_app_chunks := .int k } m with
      ⟨e, h0, -⟩ | ⟨n', c', l', h0, ⟨e, h1, -⟩ | ⟨h', r, fp, init, tl, h1, h2, h3, -⟩⟩
    · rw [hcalc] at h0; cases h0
    · rw [hcalc] at h0; cases h0
      rw [hph'] at h1; cases h1
    · rw [hcalc] at h0; cases h0
      rw [hph'] at h1; cases h1
      cases h3 with
      | metadata e _ hm he hfp =>
        exfalso
        rcases hsec with ⟨rfl, -⟩ | ⟨S, s, -, hS, -⟩
        · cases hm
        · rw [hS] at he; cases he
      | space sec m'' hs hb _ hfp =>
        refine ⟨_, h2, sec, ?_⟩
        rw [hfp]
        show [] ++ ([h.bytes] ++ optSecWrites E sec).flatten ++ List.drop _ [] = _
        rw [List.flatten_append, optSecWrites_flatten hs.valid]
        cases sec <;> simp [optSecBytes, File.bytes, File.front, File.body, File.secBytes]
      | chunk sec m'' hs hb => omega
      | offset sec m'' hs hb => omega
      | plain sec m'' hs hb => omega
      | full sec m'' hs hb => omega
  obtain ⟨fp, hfp, sec, hd⟩ := hrun
  refine ⟨?_, ?_⟩
  · rw [packBytesToBytes_eq, hfp]
  · intro fs o hw
    refine ⟨fp.data, ?_, ?_, ?_⟩
    · rw [packBytesToFile_eq E L fs data o cs md a _ m hw, hfp]
    · rw [hd]
      have : ∀ G : File μ, (G.bytes E).take 16 = G.header.bytes.take 16 := by
        intro G
        simp only [File.bytes, File.front, List.append_assoc]
        exact List.take_append_of_le_length (by rw [BloscpackHeader.bytes_length]; omega)
      rw [this, this, ← hh]
      unfold BloscpackHeader.bytes Spec.headerBytes
      rw [List.take_append_of_le_length (by simp [leBytes_length]), List.take_append_of_le_length (by simp [leBytes_length])]
      rfl
    · have := unpack_offsets_overflow (E := E) (F := { header := h, sec := sec, offsets := [], chunks := [], junk := [] }) hok hver
        (by rw [hnn]; omega) hlen fp.data.length
      rw [hd] at this ⊢
      rwa [List.take_length] at this

/-- C90, what does hold: with valid settings and metadata that can be stored, packing works with room for any number of appended chunks
below 2^59. Missing for the full property: larger numbers. -/
theorem C90_packs_partial (E : Env μ) (L : E.Laws) (data : Bytes) (cs : ChunkSizeArg) (md : Option μ) (a : BloscArgs) (b : BloscpackArgs)
    (m : MetadataArgs) (hg : Spec.GoodSettings E data.length cs a { b with max_app_chunks := .int 0 }) (hm : Spec.GoodMetadata E md m)
    (k : Int) (hk : 0 ≤ k) (hk' : k < 2 ^ 59) :
    ∃ x, packBytesToBytes E data cs md a { b with max_app_chunks := .int k } m = .ok x ∧ unpackBytesFromBytes E x = .ok (data, md) :=
  C01_total E L data cs md a _ m
    { small := hg.small, chunk := hg.chunk, blosc := hg.blosc, checksum := hg.checksum,
      apps := fun _ _ _ _ => ⟨k, .inl rfl, hk, hk'⟩ } hm

/-- the hypotheses of `C90_violated` are met: three chunks with offsets, checksums and metadata -/
example : (packBytesToBytes Toy.env [1, 2, 3, 4, 5] (.int 2) (some 9) {} { max_app_chunks := .int 0 } {}).toOption.map List.length =
    some 257 := by
  decide +kernel

end Bloscpack
