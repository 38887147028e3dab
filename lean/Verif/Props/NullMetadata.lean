import Verif.Props.Rewrite
import Verif.Props.Headers
import Verif.Props.Crash
/-
C51: appending to a file whose metadata was rewritten to `None`.
-/
namespace Bloscpack
variable {μ : Type}

/-! ### lemmas -/

theorem leDecode_append (a b : Bytes) : leDecode (a ++ b) = leDecode a + 256 ^ a.length * leDecode b := by
  induction a with
  | nil => simp [leDecode]
  | cons x xs ih =>
    simp only [List.cons_append, leDecode, ih, List.length_cons, Nat.pow_succ]
    rw [Nat.mul_add, Nat.mul_comm (256 ^ xs.length) 256, Nat.mul_assoc]; omega

/-- numbers below the one that reads "JSON" do not read as a magic format -/
theorem magic_small {b : Bytes} (h : leDecode b < 1313821514) : ¬ decodeMagicString b ∈ serializersAvail := by
  intro hm
  have hj : stripNulls b = [74, 83, 79, 78] := by
    simp only [serializersAvail, List.mem_singleton] at hm
    exact hm
  obtain ⟨i, j, t, h1, h2, h3⟩ := C06_strip_decomposition b
  rw [h1, stripNulls_spec i j t h2 h3] at hj
  subst hj
  rw [h1, leDecode_append, leDecode_append] at h
  have h4 : leDecode [74, 83, 79, 78] = 1313821514 := by decide
  rw [h4] at h
  have h5 : 1 * 1313821514 ≤ 256 ^ (List.replicate i (0 : UInt8)).length * 1313821514 := Nat.mul_le_mul_right _ (Nat.one_le_pow _ _ (by decide))
  have h6 := Nat.zero_le (leDecode (List.replicate i 0))
  have h7 := Nat.zero_le (256 ^ (List.replicate i 0 ++ [74, 83, 79, 78] : Bytes).length * leDecode (List.replicate j 0))
  omega

/-- a metadata section that does not start with a known magic format is rejected -/
theorem readMetadata_magic {E : Env μ} (A R : Bytes) (l) (m : Bool) (h : ¬ decodeMagicString (slice (R.take 32) 0 8) ∈ serializersAvail) :
    ∃ e fp, readMetadata E (Z A R l m) = (.error e, fp) := by
  generalize hr : readMetadata E (Z A R l m) = res
  obtain ⟨r, fp⟩ := res
  cases r with
  | error e => exact ⟨e, fp, rfl⟩
  | ok v =>
    exfalso
    unfold readMetadata at hr
    rw [Proc.bind_ok_iff] at hr
    obtain ⟨raw, s1, h1, hr⟩ := hr
    rw [Proc.bind_ok_iff] at hr
    obtain ⟨mh, s2, h2, hr⟩ := hr
    rw [Proc.bind_ok_iff] at hr
    obtain ⟨body, s3, h3, hr⟩ := hr
    rw [Proc.bind_ok_iff] at hr
    obtain ⟨_, s4, h4, hr⟩ := hr
    have hraw : raw = R.take 32 := by
      have := fpRead_Z A R l 32 m
      rw [show ((32 : Nat) : Int) = METADATA_HEADER_LENGTH from rfl, h1] at this
      simpa using (Prod.mk.inj this).1
    have hmagic : mh.magic_format = decodeMagicString (slice raw 0 8) := by
      have h2 : MetadataHeader.decode raw = .ok mh := congrArg Prod.fst h2
      have hlen := (MetadataHeader.decode_ok h2).2
      unfold MetadataHeader.decode at h2
      rw [if_neg (by simp [hlen])] at h2
      simp only [Except.bind_ok_iff] at h2
      obtain ⟨_, -, _, -, _, -, _, -, _, -, _, -, _, -, _, -, _, -, h2⟩ := h2
      obtain ⟨-, rfl⟩ := (MetadataHeader.new_iff _ _).1 h2
      rfl
    have hload : ∀ v, loadMetadata E mh body = .ok v → False := by
      intro v hv
      unfold loadMetadata at hv
      rw [Except.bind_ok_iff] at hv
      obtain ⟨_, -, hv⟩ := hv
      rw [Except.bind_ok_iff] at hv
      obtain ⟨_, hv, -⟩ := hv
      unfold serializerLookup at hv
      rw [hmagic, hraw, if_neg h] at hv
      cases hv
    split at hr
    · rw [Proc.bind_ok_iff] at hr
      obtain ⟨_, _, -, hr⟩ := hr
      rw [Proc.bind_ok_iff] at hr
      obtain ⟨_, _, -, hr⟩ := hr
      rw [Proc.bind_ok_iff] at hr
      obtain ⟨_, _, -, hr⟩ := hr
      rw [Proc.bind_ok_iff] at hr
      obtain ⟨v, _, hv, -⟩ := hr
      exact hload v (congrArg Prod.fst hv)
    · rw [Proc.bind_ok_iff] at hr
      obtain ⟨v, _, hv, -⟩ := hr
      exact hload v (congrArg Prod.fst hv)

/-! ### C51 -/

/-- C51 is violated: rewrite the metadata of a conforming file to `None` (the file is still conforming then, C10) and
append so much that a chunk is added. The append succeeds, but the result cannot be unpacked any more: the offsets were
written over the metadata section. (Files where the first chunk starts beyond 1.3 GB are left out: there the first offset
might spell "JSON".) -/
theorem C51_violated (E : Env μ) (L : E.Laws) (F : File μ) (hc : F.Conforming E) (ho : F.header.offsets = true)
    (hsec : F.sec.isSome) (hnull : F.metadata = none) (hsmall : (F.front E).length < 1313821514) (new : Bytes)
    (args : AppendArgs) (k : Int) (hk : 1 ≤ k) (fp : FP)
    (hrun : appendFp E { data := new } new.length args { data := F.bytes E } = (.ok k, fp)) :
    ∃ e, unpackBytesFromBytes E fp.data = .error e := by
  obtain ⟨init, p, hch, -, hlast⟩ := hc.lengths
  have hD : ((F.impl E).function p.1).length = (F.impl E).size := Hash.size_eq L (File.lookup hc.toPre).2.1 _
  have hpos : offsetsPos E F.metadata (F.sec.map (·.header)) = .ok 32 := by rw [hnull]; rfl
  have hb := File.bytes_split (E := E) hch
  have hz : ({ data := F.bytes E } : FP) = Z [] (headPart E F init ++ (p.1 ++ ((F.impl E).function p.1 ++ F.junk))) [] := by rw [hb]; rfl
  rw [hz, appendFp_start_at L hc ho hpos hch _ hD] at hrun
  have hcs : 0 ≤ F.header.chunk_size := by rcases hc.sizes with h | h <;> omega
  split at hrun
  · exfalso
    unfold appendSqueeze squeezeIn at hrun
    simp only [Proc.bind_ok_iff] at hrun
    obtain ⟨_, _, -, _, _, -, _, _, -, _, _, -, _, _, -, _, _, -, h⟩ := hrun
    simp only [Proc.pure, Prod.mk.injEq, Except.ok.injEq] at h
    omega
  · unfold appendGrow growBy at hrun
    simp only [Proc.bind_ok_iff] at hrun
    obtain ⟨⟨k', c', l'⟩, s1, h1, _, s2, h2, _, s3, h3, comp, s4, h4, _, s5, h5, r, s6, h6, raw, s7, h7, _, s8, h8, _, s9, h9, _, s10,
      h10, _, s11, h11, h12⟩ := hrun
    simp only [Proc.pure, Prod.mk.injEq, Except.ok.injEq] at h12
    obtain ⟨rfl, rfl⟩ := h12
    rename_i hbig
    have h1 : calculateNchunks ((new.length : Int) - (F.header.chunk_size - p.2.length)) (.int F.header.chunk_size) = .ok (k', c', l') :=
      congrArg Prod.fst h1
    obtain ⟨c1, c2, -, c4, -, -, c6⟩ := C02_chunking_covers _ _ _ _ _ h1
    obtain ⟨c7, v, hv, c8, -⟩ := c6 (by omega)
    have hv : v = F.header.chunk_size := by
      rcases hv with h | ⟨s, h, -⟩
      · cases h; rfl
      · cases h
    have hmax : k' ≤ F.header.max_app_chunks := by
      unfold Proc.raiseIf at h2
      split at h2
      · cases h2
      · omega
    have hn := hc.n_pos
    obtain ⟨hh, hhd⟩ : ∃ hh : BloscpackHeader, hh = { F.header with last_chunk := l', nchunks := F.header.nchunks + k', max_app_chunks := F.header.max_app_chunks - k' } := ⟨_, rfl⟩
    have hok : hh.OK := by
      have := grownFile_header_ok (E := E) (init := []) (tail := []) (F := F) (chs := List.replicate (k'.toNat + 1) ([], [])) (last := l')
        hc.ok (by omega) hcs (by simp) (by simp; omega) (by omega) (by omega)
      have hkk : (((List.replicate (k'.toNat + 1) (([], []) : Bytes × Bytes)).length : Int) - 1) = k' := by simp; omega
      unfold grownFile at this
      simp only [hkk] at this
      rw [hhd]; exact this
    have h7 : hh.encode = .ok raw := by rw [hhd]; exact congrArg Prod.fst h7
    rw [BloscpackHeader.encode_ok hok, Except.ok.injEq] at h7
    subst h7
    have hlen := hh.bytes_length
    have hs8 : s8.pos = 0 := by
      simp [fpSeek_eq, FP.seek] at h8
      rw [← h8]
    have hs9 : s9.data = hh.bytes ++ s8.data.drop 32 := by
      simp only [fpWrite_eq, FP.write, Prod.mk.injEq, true_and] at h9
      rw [← h9]
      show overlay s8.data s8.pos hh.bytes = _
      rw [hs8]
      have := overlay_append [] s8.data hh.bytes
      simpa [hlen] using this
    have hs10 : s10.data = s9.data ∧ s10.pos = 32 := by
      simp [fpSeek_eq, FP.seek] at h10
      rw [← h10]; exact ⟨rfl, rfl⟩
    unfold writeOffsets at h11
    rw [Proc.bind_ok_iff] at h11
    obtain ⟨raw2, s12, h13, h14⟩ := h11
    have h13' := congrArg Prod.fst h13
    have hs12 : s10 = s12 := congrArg Prod.snd h13
    subst hs12
    obtain ⟨-, h15⟩ := (encodeOffsets_iff _ _).1 h13'
    have hd : s11.data = hh.bytes ++ (raw2 ++ (s8.data.drop 32).drop raw2.length) := by
      simp only [fpWrite_eq, FP.write, Prod.mk.injEq, true_and] at h14
      rw [← h14]
      show overlay s10.data s10.pos raw2 = _
      rw [hs10.1, hs10.2, hs9, ← hlen, overlay_append]
      simp
    obtain ⟨c0, cs0, hcs0⟩ : ∃ c0 cs0, F.chunks.map (·.1) = c0 :: cs0 := by
      rw [hch]; cases init <;> simp
    obtain ⟨Y, hY⟩ : ∃ Y, s11.data = hh.bytes ++ (Spec.leBytes 8 ((F.front E).length : Nat) ++ Y) := by
      rw [hd, h15, hcs0]
      simp only [Spec.positions, Spec.int64s, List.cons_append, List.flatMap_cons, List.append_assoc]
      exact ⟨_, rfl⟩
    rw [hY]
    have hb8 := leBytes_length 8 ((F.front E).length : Nat)
    obtain ⟨e, fp2, hm⟩ := readMetadata_magic (E := E) (A := [] ++ hh.bytes) (R := Spec.leBytes 8 ((F.front E).length : Nat) ++ Y) [] true (by
      apply magic_small
      rw [slice_take _ _ _ _ (by omega), slice_append_left _ _ _ _ (by omega), slice_all _ _ (by omega),
        leDecode_leBytes (by omega) (by omega)]
      omega)
    have hmeta : hh.metadata = true := by
      rw [hhd]; show F.header.metadata = true
      rw [hc.meta_flag, hsec]
    have hrh : readBloscpackHeader { data := hh.bytes ++ (Spec.leBytes 8 ((F.front E).length : Nat) ++ Y), inMemory := true } =
        (.ok hh, Z ([] ++ hh.bytes) (Spec.leBytes 8 ((F.front E).length : Nat) ++ Y) [] true) := by
      have := MemSame.readBloscpackHeader (Z [] (hh.bytes ++ (Spec.leBytes 8 ((F.front E).length : Nat) ++ Y)) [])
      rw [readHeader_ok hok (by rw [hhd]; exact hc.version) _ _ _] at this
      exact this
    have hbeg : readBeginning E { data := hh.bytes ++ (Spec.leBytes 8 ((F.front E).length : Nat) ++ Y), inMemory := true } = (.error e, fp2) := by
      unfold readBeginning
      rw [Proc.bind_of_ok hrh]
      simp only [hmeta, if_true]
      rw [Proc.bind_of_error]
      rw [Proc.bind_of_error hm]
    refine ⟨e, ?_⟩
    unfold unpackBytesFromBytes unpackFP
    rw [hbeg]

/-- C51, what holds: as long as the new content fits into the last chunk, appending to such a file works. -/
theorem C51_small_append_partial (E : Env μ) (L : E.Laws) (F : File μ) (hc : F.Conforming E) (ho : F.header.offsets = true)
    (new : Bytes) (hfit : F.header.last_chunk + new.length ≤ F.header.chunk_size) (args : AppendArgs)
    (hv : (args.filled F.header).Valid E) :
    ∃ fp, appendFp E { data := new } new.length args { data := F.bytes E } = (.ok 0, fp) ∧
      unpackBytesFromBytes E fp.data = .ok (F.data ++ new, F.metadata) := by
  obtain ⟨init, p, hch, -, hlast⟩ := hc.lengths
  have hD : ((F.impl E).function p.1).length = (F.impl E).size := Hash.size_eq L (File.lookup hc.toPre).2.1 _
  obtain ⟨pos, hpos⟩ : ∃ pos, offsetsPos E F.metadata (F.sec.map (·.header)) = .ok pos := by
    by_cases hm : F.metadata = none
    · exact ⟨32, by rw [hm]; rfl⟩
    · exact ⟨_, offsetsPos_ok L hc.toPre (fun h => absurd h hm)⟩
  have hb := File.bytes_split (E := E) hch
  have hz : ({ data := F.bytes E } : FP) = Z [] (headPart E F init ++ (p.1 ++ ((F.impl E).function p.1 ++ F.junk))) [] := by rw [hb]; rfl
  have hfit' : (new.length : Int) ≤ F.header.chunk_size - p.2.length := by omega
  have hcs := hc.ok.2.2.2.1
  have hbuf : ((p.2 ++ new).length : Int) ≤ BLOSC_MAX_BUFFERSIZE := by
    rw [List.length_append]
    show _ ≤ (2 ^ 31 - 1 - 16 : Int)
    omega
  obtain ⟨c, hcomp⟩ := L.compress_total (p.2 ++ new) _ hv hbuf
  obtain ⟨fp, h1, h2, -⟩ := appendSqueeze_ok hc ho hch ((F.impl E).function p.1) hfit' hcomp []
  refine ⟨fp, ?_, ?_⟩
  · rw [hz, appendFp_start_at L hc ho hpos hch _ hD, if_pos hfit', h1]
  · have hg := squeeze_grown hc hlast hfit' hcomp
    have hf := hg.conforming L hc ho hch (squeeze_reach hc ho hch _ _) (p.1 ++ ((F.impl E).function p.1 ++ F.junk))
    have hd := hg.data hch (p.1 ++ ((F.impl E).function p.1 ++ F.junk))
    have hl : ((c, p.2 ++ new).2.length : Int) = F.header.last_chunk + new.length := by
      show ((p.2 ++ new).length : Int) = _
      rw [List.length_append]; omega
    rw [hl] at hf hd
    rw [h2]
    refine (unpack_conforming L hf.toValid).trans ?_
    rw [hd]; rfl

/-- C20, what does hold: if the settings are valid once completed from the header, appending nothing to the archive of nothing succeeds, adds
no chunk and leaves an archive of nothing with the same metadata. -/
theorem C20_append_nothing_succeeds_partial (E : Env μ) (L : E.Laws) (cs : ChunkSizeArg) (md : Option μ) (a : BloscArgs)
    (b : BloscpackArgs) (m : MetadataArgs) (hb : b.offsets = true) (out : Bytes) (h : packBytesToBytes E [] cs md a b m = .ok out)
    (args : AppendArgs) (hv : ∀ hd, BloscpackHeader.decode (out.take 32) = .ok hd → (args.filled hd).Valid E) :
    ∃ fp, appendFp E { data := [] } 0 args { data := out } = (.ok 0, fp) ∧ unpackBytesFromBytes E fp.data = .ok ([], md) := by
  obtain ⟨F, rfl, hc, -, hd, hm, ho, hz, -⟩ := packed_appendable E L _ _ _ _ _ _ _ h
  have hz := hz rfl
  have hlast : F.header.last_chunk = 0 := by rcases hc.sizes with h | h <;> omega
  have hdec : BloscpackHeader.decode ((F.bytes E).take 32) = .ok F.header := by
    have : (F.bytes E).take 32 = F.header.bytes := by
      have hl := F.header.bytes_length
      simp only [File.bytes, File.front, List.append_assoc]
      rw [List.take_append_of_le_length (by omega), List.take_of_length_le (by omega)]
    rw [this, BloscpackHeader.decode_bytes hc.ok]
  obtain ⟨fp, h1, h2⟩ := C51_small_append_partial E L F hc (by rw [ho, hb]) [] (by simp; omega) args (hv _ hdec)
  refine ⟨fp, h1, ?_⟩
  rw [h2, hd, hm]; rfl

/-- The whole story: pack, rewrite the metadata to `None`, append. With one byte all is well (the last chunk has room),
with three the result is unreadable. -/
example : (packBytesToBytes Toy.env [1, 2, 3] (.int 2) (some 5) {} { max_app_chunks := .int 2 }
      { max_meta_size := .int 12 }).toOption.map (fun out =>
    let r := rewriteMetadata Toy.env none {} { data := out }
    let a1 := appendFp Toy.env { data := [4] } 1 {} { data := r.2.data }
    let a3 := appendFp Toy.env { data := [4, 5, 6] } 3 {} { data := r.2.data }
    ([r.1.toBool, a1.1.toBool, a3.1.toBool], [r.2, a1.2, a3.2].map fun fp =>
      (unpackBytesFromBytes Toy.env fp.data).toOption)) =
      some ([true, true, true], [some ([1, 2, 3], none), some ([1, 2, 3, 4], none), none]) := by
  decide +kernel

/-- the file after the rewrite meets the hypotheses of both theorems -/
example (out : Bytes) (h : packBytesToBytes Toy.env [1, 2, 3] (.int 2) (some 5) {} { max_app_chunks := .int 2 }
    { max_meta_size := .int 12 } = .ok out) (fp : FP) (hr : rewriteMetadata Toy.env none {} { data := out } = (.ok (), fp)) :
    ∃ F : File Nat, fp.data = F.bytes Toy.env ∧ F.Conforming Toy.env ∧ F.header.offsets = true ∧ F.sec.isSome ∧
      F.metadata = none := by
  obtain ⟨F, rfl, h2, -, -, -, h4, -⟩ := packed_appendable Toy.env Toy.laws _ _ _ _ _ _ _ h
  obtain ⟨-, -, -, -, F', g1, g2, -, g3, g4, -, g5, -⟩ := C10_rewrite Toy.env Toy.laws F h2 _ _ _ hr
  exact ⟨F', g1, g2, by rw [g4, h4], g5, g3⟩

end Bloscpack
