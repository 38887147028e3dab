import Verif.Lemmas.Crash
import Verif.Lemmas.Locate
import Verif.Props.Damage
/-
C25, C26: interrupted packing.
-/
namespace Bloscpack
variable {μ : Type}

/-! ### lemmas -/

theorem getElem?_mid {P Q : Bytes} {x : UInt8} {k : Nat} (h : P.length = k) : (P ++ x :: Q)[k]? = some x := by
  rw [List.getElem?_append_right (by omega)]
  simp [h]

theorem leDecode_leBytes {w : Nat} {v : Int} (h0 : 0 ≤ v) (h1 : v < 256 ^ w) : leDecode (Spec.leBytes w v) = v.toNat := by
  rw [← leEncode_unsigned w v h0 h1, leDecode_leEncode _ _ (toNat_lt_pow h1)]

theorem header_byte5 (h : BloscpackHeader) : h.bytes[5]? = some (Spec.optionsByte h.offsets h.metadata) := by
  have : h.bytes = ([0x62, 0x6c, 0x70, 0x6b] ++ Spec.leBytes 1 h.format_version) ++ Spec.optionsByte h.offsets h.metadata ::
    ([UInt8.ofNat (Spec.checksumNames.idxOf h.checksum)] ++ Spec.leBytes 1 h.typesize ++ Spec.leBytes 4 h.chunk_size ++
      Spec.leBytes 4 h.last_chunk ++ Spec.leBytes 8 h.nchunks ++ Spec.leBytes 8 h.max_app_chunks) := by
    simp [BloscpackHeader.bytes, Spec.headerBytes]
  rw [this]
  exact getElem?_mid (by simp [leBytes_length])

theorem header_counts (h : BloscpackHeader) :
    slice h.bytes 16 24 = Spec.leBytes 8 h.nchunks ∧ slice h.bytes 24 32 = Spec.leBytes 8 h.max_app_chunks := by
  have : h.bytes = (([0x62, 0x6c, 0x70, 0x6b] ++ Spec.leBytes 1 h.format_version) ++ Spec.optionsByte h.offsets h.metadata ::
    ([UInt8.ofNat (Spec.checksumNames.idxOf h.checksum)] ++ Spec.leBytes 1 h.typesize ++ Spec.leBytes 4 h.chunk_size ++
      Spec.leBytes 4 h.last_chunk)) ++ (Spec.leBytes 8 h.nchunks ++ Spec.leBytes 8 h.max_app_chunks) := by
    simp [BloscpackHeader.bytes, Spec.headerBytes]
  rw [this]
  generalize hP : ([0x62, 0x6c, 0x70, 0x6b] ++ Spec.leBytes 1 h.format_version) ++ Spec.optionsByte h.offsets h.metadata ::
    ([UInt8.ofNat (Spec.checksumNames.idxOf h.checksum)] ++ Spec.leBytes 1 h.typesize ++ Spec.leBytes 4 h.chunk_size ++
      Spec.leBytes 4 h.last_chunk) = P
  have hl : P.length = 16 := by rw [← hP]; simp [leBytes_length]
  constructor
  · rw [slice_append_right _ _ _ _ (by omega), hl, slice_append_left _ _ _ _ (by rw [leBytes_length]; omega),
      slice_all _ _ (by rw [leBytes_length]; omega)]
  · rw [slice_append_right _ _ _ _ (by omega), hl, slice_append_right _ _ _ _ (by rw [leBytes_length]; omega),
      leBytes_length, slice_all _ _ (by rw [leBytes_length]; omega)]

theorem metaHeader_fields (h : MetadataHeader) :
    h.bytes[9]? = some (UInt8.ofNat (Spec.checksumNames.idxOf h.meta_checksum)) ∧
    slice h.bytes 16 20 = Spec.leBytes 4 h.max_meta_size := by
  constructor
  · have : h.bytes = (Spec.padded8 h.magic_format ++ [UInt8.ofNat (Spec.bitsValue h.meta_options)]) ++
        UInt8.ofNat (Spec.checksumNames.idxOf h.meta_checksum) :: ([UInt8.ofNat (Spec.codecNames.idxOf h.meta_codec)] ++
        Spec.leBytes 1 h.meta_level ++ Spec.leBytes 4 h.meta_size ++ Spec.leBytes 4 h.max_meta_size ++
        Spec.leBytes 4 h.meta_comp_size ++ Spec.padded8 h.user_codec) := by
      simp [MetadataHeader.bytes, Spec.metaHeaderBytes]
    rw [this]
    exact getElem?_mid (by simp [padded8_length])
  · have : h.bytes = (Spec.padded8 h.magic_format ++ [UInt8.ofNat (Spec.bitsValue h.meta_options)] ++
        [UInt8.ofNat (Spec.checksumNames.idxOf h.meta_checksum)] ++ [UInt8.ofNat (Spec.codecNames.idxOf h.meta_codec)] ++
        Spec.leBytes 1 h.meta_level ++ Spec.leBytes 4 h.meta_size) ++ (Spec.leBytes 4 h.max_meta_size ++
        (Spec.leBytes 4 h.meta_comp_size ++ Spec.padded8 h.user_codec)) := by
      simp [MetadataHeader.bytes, Spec.metaHeaderBytes]
    rw [this]
    generalize hP : (Spec.padded8 h.magic_format ++ [UInt8.ofNat (Spec.bitsValue h.meta_options)] ++
        [UInt8.ofNat (Spec.checksumNames.idxOf h.meta_checksum)] ++ [UInt8.ofNat (Spec.codecNames.idxOf h.meta_codec)] ++
        Spec.leBytes 1 h.meta_level ++ Spec.leBytes 4 h.meta_size) = P
    have hl : P.length = 16 := by rw [← hP]; simp [leBytes_length, padded8_length]
    rw [slice_append_right _ _ _ _ (by omega), hl, slice_append_left _ _ _ _ (by rw [leBytes_length]; omega),
      slice_all _ _ (by rw [leBytes_length]; omega)]

theorem slice_take {α} (a : List α) (i j k : Nat) (h : j ≤ k) : slice (a.take k) i j = slice a i j := by
  unfold slice
  rw [List.drop_take, List.take_take, Nat.min_eq_left (by omega)]

theorem optionsByte_bit (o m : Bool) : (Spec.optionsByte o m &&& 2 ≠ 0) ↔ m = true := by
  cases o <;> cases m <;> decide

/-- where the offsets start in any prefix of a file that reaches beyond its metadata header -/
theorem offsetsStart_file {E : Env μ} (L : E.Laws) {F : File μ} (hflag : F.header.metadata = F.sec.isSome)
    (hsec : ∀ s, F.sec = some s → s.Valid E) (k : Nat) (hk : 32 ≤ k) (hk2 : F.header.metadata = true → 64 ≤ k) :
    Spec.offsetsStart Spec.checksumSizes ((F.bytes E).take k) = 32 + (F.secBytes E).length := by
  have hb := F.header.bytes_length
  have hF : F.bytes E = F.header.bytes ++ (F.secBytes E ++ (F.offsets ++ (F.body E ++ F.junk))) := by
    simp [File.bytes, File.front]
  have h5 : ((F.bytes E).take k)[5]? = some (Spec.optionsByte F.header.offsets F.header.metadata) := by
    rw [List.getElem?_take_of_lt (by omega), hF, List.getElem?_append_left (by omega), header_byte5]
  unfold Spec.offsetsStart
  rw [h5, Option.getD_some]
  cases hm : F.header.metadata with
  | false =>
    rw [if_neg (by rw [optionsByte_bit]; simp)]
    rw [hm] at hflag
    have : F.sec = none := by
      cases hs : F.sec with
      | none => rfl
      | some s => rw [hs] at hflag; simp at hflag
    simp [File.secBytes, this]
  | true =>
    rw [if_pos (by rw [optionsByte_bit])]
    rw [hm] at hflag
    obtain ⟨s, hs⟩ := Option.isSome_iff_exists.1 hflag.symm
    have hsv := hsec s hs
    have hmb := s.header.bytes_length
    have hS : F.secBytes E = s.header.bytes ++ (s.body ++ (List.replicate s.prealloc 0 ++ (s.impl E).function s.body)) := by
      simp only [File.secBytes, hs, Section.bytes]
    have hk64 := hk2 hm
    have h41 : ((F.bytes E).take k)[41]? = some (UInt8.ofNat (Spec.checksumNames.idxOf s.header.meta_checksum)) := by
      rw [List.getElem?_take_of_lt (by omega), hF, List.getElem?_append_right (by omega), hb, hS, List.append_assoc,
        List.getElem?_append_left (by omega), (metaHeader_fields _).1]
    have h48 : slice ((F.bytes E).take k) 48 52 = Spec.leBytes 4 s.header.max_meta_size := by
      rw [slice_take _ _ _ _ (by omega), hF, slice_append_right _ _ _ _ (by omega), hb, hS, List.append_assoc,
        slice_append_left _ _ _ _ (by omega), (metaHeader_fields _).2]
    obtain ⟨o1, o2, o3, o4, o5, o6, o7, o8, o9⟩ := hsv.ok
    rw [h41, h48, Option.getD_some, leDecode_leBytes o7.1 (by omega)]
    have hidx : (UInt8.ofNat (Spec.checksumNames.idxOf s.header.meta_checksum)).toNat = Spec.checksumNames.idxOf s.header.meta_checksum := by
      have := List.idxOf_lt_length_of_mem o3
      have h9 : Spec.checksumNames.length = 9 := rfl
      rw [UInt8.toNat_ofNat_of_lt' (by show _ < 256; omega)]
    rw [hidx]
    have hsz : (s.impl E).size = Spec.digestSize s.header.meta_checksum := by
      obtain ⟨h, e1, -, e3⟩ := checksumLookup_of (hl := E.hashlib) o3
      have e0 := (Section.lookup hsv).1
      rw [e1] at e0; cases e0; exact e3
    have hlen := Section.bytes_length L hsv
    have hsb : F.secBytes E = s.bytes E := by simp only [File.secBytes, hs]
    rw [hsb]
    rw [hsz] at hlen
    unfold Spec.digestSize at hlen
    omega

theorem crashed_snoc {d d' : Bytes} {log : List (Nat × Bytes)} {p : Nat} {bs : Bytes}
    (h : Spec.Crashed d (log ++ [(p, bs)]) d') :
    Spec.Crashed d log d' ∨ ∃ t, d' = overlay (Spec.replay d log) p (bs.take t) := by
  rcases h with rfl | ⟨done, q, cs, todo, t, h1, rfl⟩
  · exact .inl (.inl rfl)
  · rcases List.eq_nil_or_concat todo with rfl | ⟨todo', w, rfl⟩
    · obtain ⟨h2, h3⟩ := List.append_inj' h1 rfl
      simp only [List.cons.injEq, Prod.mk.injEq, and_true] at h3
      obtain ⟨rfl, rfl⟩ := h3
      exact .inr ⟨t, by rw [h2]⟩
    · rw [List.concat_eq_append, ← List.cons_append, ← List.append_assoc] at h1
      obtain ⟨h2, -⟩ := List.append_inj' h1 rfl
      exact .inl (.inr ⟨done, q, cs, todo', t, h2, rfl⟩)

theorem overlay_mid (A B R bs : Bytes) (h : bs.length ≤ B.length) :
    overlay (A ++ (B ++ R)) A.length bs = A ++ ((bs ++ B.drop bs.length) ++ R) := by
  rw [overlay_append, List.drop_append_of_le_length h]
  simp

/-- everything a packing run can leave behind, in a form independent of its outcome: a prefix of an incomplete or
complete file with an all -1 table, or a complete file with a partly written table -/
theorem pack_crash_cases {E : Env μ} (L : E.Laws) {data : Bytes} {cs : ChunkSizeArg} {md : Option μ} {a : BloscArgs}
    {b : BloscpackArgs} {m : MetadataArgs} {r : Except Err MetadataArgs} {fp : FP}
    (h : packBytes E data cs md a b m = (r, some fp)) :
    fp.data = Spec.replay [] fp.log ∧
    ∃ before : List (Nat × Bytes),
    (∀ d, Spec.Crashed [] before d →
      d = [] ∨
      (∃ hd : BloscpackHeader, hd.OK ∧ hd.format_version = 3 ∧ md.isSome ∧ hd.metadata = true ∧ ∃ k ≤ 32, d = hd.bytes.take k) ∨
      (∃ F : File μ, F.Pre E ∧ F.junk = [] ∧ F.header.offsets = b.offsets ∧ F.offsets = placeholder F.header ∧
        1 ≤ F.header.nchunks ∧
        (F.chunks.length < F.header.nchunks ∨ (F.Valid E ∧ F.data = data ∧ F.metadata = md)) ∧
        ∃ k ≤ (F.bytes E).length, d = (F.bytes E).take k) ∨
      (∃ F : File μ, F.header.OK ∧ F.header.format_version = 3 ∧ F.header.metadata = F.sec.isSome ∧ (∀ s, F.sec = some s → s.Valid E) ∧
        0 ≤ F.header.nchunks ∧ 2 ^ 63 ≤ offsetsLen F.header ∧ ∃ k ≤ 32 + (F.secBytes E).length, d = (F.bytes E).take k)) ∧
    ((fp.log = before ∧ (b.offsets = true → ∃ e, r = .error e)) ∨
     (b.offsets = true ∧ (∃ m', r = .ok m') ∧ ∃ w, fp.log = before ++ [w] ∧
      ∀ t, ∃ F : File μ, F.Valid E ∧ F.data = data ∧ F.metadata = md ∧
        overlay (Spec.replay [] before) w.1 (w.2.take t) = F.bytes E)) := by
  rcases packBytes_run L data cs md a b m with ⟨e, -, h1⟩ | ⟨n, c, l, h0, ⟨e, -, h1⟩ | ⟨hd, r, fp, init, tl, h1, h2, h3, h4, h5, h6, h7, h8, h9⟩⟩
  · rw [h1] at h; cases h
  · rw [h1] at h
    simp only [Prod.mk.injEq, Option.some.injEq] at h
    obtain ⟨rfl, rfl⟩ := h
    refine ⟨rfl, [], ?_, .inl ⟨rfl, fun _ => ⟨e, rfl⟩⟩⟩
    rintro d (rfl | ⟨done, p, bs, todo, t, hx, -⟩)
    · exact .inl rfl
    · simp at hx
  rw [h2] at h
  simp only [Prod.mk.injEq, Option.some.injEq] at h
  obtain ⟨rfl, rfl⟩ := h
  obtain ⟨g1, g2, g3, g4, g5, g6, g7, g8, g9, g10⟩ := packHeader_ok h1
  have hcr : ∀ sec m' chs, SecFor E md m sec m' → offsetsLen hd < 2 ^ 63 → (chs.length : Int) ≤ hd.nchunks →
      (∀ p ∈ chs, E.compress p.2 a = .ok p.1) → (chs.length < hd.nchunks ∨ chs.map (·.2) = init ++ [tl]) → ∀ d,
      Spec.Crashed [] (seqLog 0 (frontWrites E hd sec ++ chunksWrites ((baseFile hd sec chs).impl E) (chs.map (·.1)))) d →
      ∃ F : File μ, F.Pre E ∧ F.junk = [] ∧ F.header.offsets = b.offsets ∧ F.offsets = placeholder F.header ∧
        1 ≤ F.header.nchunks ∧
        (F.chunks.length < F.header.nchunks ∨ (F.Valid E ∧ F.data = data ∧ F.metadata = md)) ∧
        ∃ k ≤ (F.bytes E).length, d = (F.bytes E).take k := by
    intro sec m' chs hs hb hn hc hor d hd'
    obtain ⟨k, hk, rfl⟩ := crashed_seqLog hd'
    have hflat : (frontWrites E hd sec ++ chunksWrites ((baseFile hd sec chs).impl E) (chs.map (·.1))).flatten =
        (baseFile hd sec chs).bytes E := by
      have := wrote_base_data (h := hd) hs.valid chs
      simpa [wrote] using this
    rw [hflat] at hk ⊢
    have hpre := baseFile_pre L g1 g2 hs.valid (by rw [g4, hs.isSome]) hb hn hc
    refine ⟨baseFile hd sec chs, hpre, rfl, g3, rfl, by show 1 ≤ hd.nchunks; omega, ?_, k, hk, rfl⟩
    rcases hor with hlt | hall
    · exact .inl hlt
    · refine .inr ⟨⟨hpre, ?_⟩, ?_, hs.metadata_eq rfl⟩
      · have := congrArg List.length hall
        simp at this
        show hd.nchunks = (chs.length : Int)
        omega
      · show (chs.map (·.2)).flatten = data
        rw [hall, h7]
  have hlen : (((init ++ [tl]).length : Nat) : Int) = hd.nchunks := by simp; omega
  have hwd : ∀ bss : List Bytes, (wrote [] [] [] bss).data = Spec.replay [] (wrote [] [] [] bss).log := by
    intro bss
    have := replay_seqLog [] bss
    simp only [wrote, Z_data, List.drop_nil, List.append_nil, List.nil_append, List.length_nil] at this ⊢
    exact this.symm
  cases h3 with
  | metadata e _ hm he hfp =>
    refine ⟨by rw [hfp, hwd], fp.log, ?_, .inl ⟨rfl, fun _ => ⟨e, rfl⟩⟩⟩
    intro d hd'
    right; left
    have hl : fp.log = seqLog 0 [hd.bytes] := by rw [hfp]; rfl
    rw [hl] at hd'
    obtain ⟨k, hk, rfl⟩ := crashed_seqLog hd'
    simp only [List.flatten_singleton] at hk ⊢
    exact ⟨hd, g1, g2, hm, by rw [g4, hm], k, by rw [hd.bytes_length] at hk; exact hk, rfl⟩
  | space sec m' hs hb _ hfp =>
    refine ⟨by rw [hfp, hwd], fp.log, ?_, .inl ⟨rfl, fun _ => ⟨_, rfl⟩⟩⟩
    intro d hd'
    right; right; right
    have hl : fp.log = seqLog 0 ([hd.bytes] ++ optSecWrites E sec) := by rw [hfp]; rfl
    rw [hl] at hd'
    obtain ⟨k, hk, rfl⟩ := crashed_seqLog hd'
    have hsb : (baseFile hd sec []).secBytes E = optSecBytes E sec := by cases sec <;> rfl
    have hflat : ([hd.bytes] ++ optSecWrites E sec).flatten = hd.bytes ++ optSecBytes E sec := by
      rw [List.flatten_append, List.flatten_singleton, optSecWrites_flatten hs.valid]
    rw [hflat] at hk ⊢
    have hF : (baseFile hd sec []).bytes E = (hd.bytes ++ optSecBytes E sec) ++ (placeholder hd ++ ((baseFile hd sec []).body E ++ [])) := by
      rw [← hsb]
      simp [File.bytes, File.front, baseFile]
    refine ⟨baseFile hd sec [], g1, g2, by show hd.metadata = sec.isSome; rw [g4, hs.isSome], hs.valid, by show 0 ≤ hd.nchunks; omega, hb, k, ?_, ?_⟩
    · rw [hsb]
      rw [List.length_append, hd.bytes_length] at hk
      exact hk
    · rw [hF, List.take_append_of_le_length hk]
  | chunk sec m' hs hb chs d rest e hi hc he _ hfp =>
    refine ⟨by rw [hfp, hwd], fp.log, ?_, .inl ⟨rfl, fun _ => ⟨e, rfl⟩⟩⟩
    intro d' hd'
    right; right; left
    have hl : fp.log = seqLog 0 (frontWrites E hd sec ++ chunksWrites ((baseFile hd sec chs).impl E) (chs.map (·.1))) := by rw [hfp]; rfl
    rw [hl] at hd'
    have hlt : (chs.length : Int) < hd.nchunks := by
      have := congrArg List.length hi
      rw [List.length_append, List.length_map, List.length_cons] at this
      omega
    exact hcr sec m' chs hs hb (by omega) hc (.inl hlt) d' hd'
  | offset sec m' hs hb chs e hi hc ho he _ hdd hl =>
    have hcl : (chs.length : Int) ≤ hd.nchunks := by
      have := congrArg List.length hi
      rw [List.length_map] at this
      omega
    refine ⟨?_, fp.log, ?_, .inl ⟨rfl, fun _ => ⟨e, rfl⟩⟩⟩
    · have := replay_seqLog [] (frontWrites E hd sec ++ chunksWrites ((baseFile hd sec chs).impl E) (chs.map (·.1)))
      simp only [List.length_nil, List.nil_append] at this
      rw [hdd, hl, this]
      have h10 := wrote_base_data (h := hd) hs.valid chs
      simp only [wrote, Z_data, List.drop_nil, List.append_nil, List.nil_append] at h10
      exact h10.symm
    · intro d' hd'
      right; right; left
      rw [hl] at hd'
      exact hcr sec m' chs hs hb hcl hc (.inr hi) d' hd'
  | plain sec m' hs hb chs hi hc ho _ hfp =>
    have hcl : (chs.length : Int) ≤ hd.nchunks := by
      have := congrArg List.length hi
      rw [List.length_map] at this
      omega
    refine ⟨by rw [hfp, hwd], fp.log, ?_, .inl ⟨rfl, fun hx => by rw [← g3, ho] at hx; cases hx⟩⟩
    intro d' hd'
    right; right; left
    have hl : fp.log = seqLog 0 (frontWrites E hd sec ++ chunksWrites ((baseFile hd sec chs).impl E) (chs.map (·.1))) := by rw [hfp]; rfl
    rw [hl] at hd'
    exact hcr sec m' chs hs hb hcl hc (.inr hi) d' hd'
  | full sec m' hs hb chs hi hc ho raw he _ hdd hl hp =>
    have hcl : (chs.length : Int) = hd.nchunks := by
      have := congrArg List.length hi
      rw [List.length_map] at this
      omega
    have hrep : Spec.replay [] (seqLog 0 (frontWrites E hd sec ++ chunksWrites ((baseFile hd sec chs).impl E) (chs.map (·.1)))) =
        (baseFile hd sec chs).bytes E := by
      have := replay_seqLog [] (frontWrites E hd sec ++ chunksWrites ((baseFile hd sec chs).impl E) (chs.map (·.1)))
      simp only [List.length_nil, List.nil_append] at this
      rw [this]
      have h10 := wrote_base_data (h := hd) hs.valid chs
      simp only [wrote, Z_data, List.drop_nil, List.append_nil, List.nil_append] at h10
      exact h10
    have hpre := baseFile_pre L g1 g2 hs.valid (by rw [g4, hs.isSome]) hb (by omega : (chs.length : Int) ≤ hd.nchunks) hc
    have hm0 : 0 ≤ hd.max_app_chunks := g1.2.2.2.2.2.2.1.1
    obtain ⟨-, hraw⟩ := (encodeOffsets_iff _ _).1 he
    have hrl : raw.length = 8 * chs.length := by rw [hraw, int64s_length, positions_length, List.length_map]
    have hpl : raw.length ≤ (placeholder hd).length := by
      rw [placeholder_length, offsetsLen, ho, hrl]
      simp only [if_true]
      omega
    have hsb : (baseFile hd sec chs).secBytes E = optSecBytes E sec := by cases sec <;> rfl
    have hbytes : (baseFile hd sec chs).bytes E = (hd.bytes ++ optSecBytes E sec) ++ (placeholder hd ++ (baseFile hd sec chs).body E) := by
      have : (baseFile hd sec chs).bytes E = (hd.bytes ++ ((baseFile hd sec chs).secBytes E ++ placeholder hd)) ++
        ((baseFile hd sec chs).body E ++ []) := rfl
      rw [this, hsb]; simp
    have hov : ∀ x : Bytes, x.length ≤ (placeholder hd).length →
        overlay ((baseFile hd sec chs).bytes E) (32 + (optSecBytes E sec).length) x =
        ({ (baseFile hd sec chs) with offsets := x ++ (placeholder hd).drop x.length } : File μ).bytes E := by
      intro x hx
      have hpos : 32 + (optSecBytes E sec).length = (hd.bytes ++ optSecBytes E sec).length := by
        rw [List.length_append, hd.bytes_length]
      rw [hbytes, hpos, overlay_mid _ _ _ _ hx]
      have : ({ (baseFile hd sec chs) with offsets := x ++ (placeholder hd).drop x.length } : File μ).bytes E =
        (hd.bytes ++ ((baseFile hd sec chs).secBytes E ++ (x ++ (placeholder hd).drop x.length))) ++
          ((baseFile hd sec chs).body E ++ []) := rfl
      rw [this, hsb]; simp
    have hvalid : ∀ x : Bytes, x.length ≤ (placeholder hd).length →
        ({ (baseFile hd sec chs) with offsets := x ++ (placeholder hd).drop x.length } : File μ).Valid E := by
      intro x hx
      refine ⟨{ hpre with offsets_len := ?_ }, ?_⟩
      · show (x ++ (placeholder hd).drop x.length).length = offsetsLen hd
        rw [← placeholder_length, List.length_append, List.length_drop]; omega
      · show hd.nchunks = (chs.length : Int); omega
    have hdata : (chs.map (·.2)).flatten = data := by rw [hi, h7]
    refine ⟨?_, seqLog 0 (frontWrites E hd sec ++ chunksWrites ((baseFile hd sec chs).impl E) (chs.map (·.1))), ?_,
      .inr ⟨by rw [← g3, ho], ⟨m', rfl⟩, _, hl, ?_⟩⟩
    · have e2 : overlay ((baseFile hd sec chs).bytes E) (32 + (optSecBytes E sec).length) raw =
          (packedFile E hd sec chs).bytes E := by
        rw [hov raw hpl]
        have : (packedFile E hd sec chs).offsets = raw ++ (placeholder hd).drop raw.length := by
          show (if hd.offsets then _ else _) = _
          rw [if_pos ho, int64s_append, ← hraw]
          congr 1
          rw [placeholder, if_pos ho, int64s_minus_one, int64s_minus_one, List.drop_replicate, hrl]
          congr 1
          omega
        rw [← this]; rfl
      rw [hdd, hl, replay_append, hrep, ← e2]
      rfl
    · intro d' hd'
      exact .inr (.inr (.inl (hcr sec m' chs hs hb (by omega) hc (.inr hi) d' hd')))
    · intro t
      have hx : (raw.take t).length ≤ (placeholder hd).length := by rw [List.length_take]; omega
      exact ⟨_, hvalid _ hx, hdata, hs.metadata_eq rfl, by rw [hrep]; exact hov _ hx⟩

theorem unpackFrom_header_only {E : Env μ} {hd : BloscpackHeader} (hok : hd.OK) (hv : hd.format_version = 3)
    (hm : hd.metadata = true) : ∃ o, unpackFrom E hd.bytes = (.error .valueError, o) := by
  unfold unpackFrom unpackFP
  have hz : ({ data := hd.bytes } : FP) = Z [] (hd.bytes ++ []) [] := by rw [List.append_nil]; rfl
  have hrd : ∃ s, readBeginning E (Z [] (hd.bytes ++ []) []) = (.error .valueError, s) := by
    unfold readBeginning
    rw [Proc.bind_of_ok (readHeader_ok hok hv [] [] [])]
    have hmd : ∃ s, readMetadata E (Z ([] ++ hd.bytes) [] []) = (.error .valueError, s) := by
      unfold readMetadata
      have h1 : fpRead METADATA_HEADER_LENGTH (Z ([] ++ hd.bytes) [] []) = (.ok [], Z ([] ++ hd.bytes ++ []) [] []) :=
        fpRead_Z ([] ++ hd.bytes) [] [] 32
      rw [Proc.bind_of_ok h1]
      exact ⟨_, Proc.bind_of_error (e := .valueError) rfl⟩
    obtain ⟨s, hmd⟩ := hmd
    refine ⟨s, Proc.bind_of_error ?_⟩
    rw [if_pos hm]
    exact Proc.bind_of_error hmd
  obtain ⟨s, hrd⟩ := hrd
  rw [hz, hrd]
  exact ⟨_, rfl⟩

theorem unpackFrom_header_cut {E : Env μ} {hd : BloscpackHeader} (hok : hd.OK) (hv : hd.format_version = 3)
    (hm : hd.metadata = true) (k : Nat) (hk : k ≤ 32) : ∃ e, unpackBytesFromBytes E (hd.bytes.take k) = .error e := by
  by_cases h32 : k = 32
  · rw [List.take_of_length_le (by rw [hd.bytes_length]; omega)]
    obtain ⟨o, h⟩ := unpackFrom_header_only (E := E) hok hv hm
    exact ⟨_, unpackBytes_error h (by decide)⟩
  · exact ⟨_, (C45_not_bloscpack E _ (.inl (by rw [List.length_take, hd.bytes_length]; omega))).1⟩

/-- an archive whose offsets section would be longer than any byte string is refused, however it goes on -/
theorem unpack_offsets_overflow {E : Env μ} {F : File μ} (hok : F.header.OK) (hv : F.header.format_version = 3) (hn : 0 ≤ F.header.nchunks)
    (hb : 2 ^ 63 ≤ offsetsLen F.header) (k : Nat) : ∃ e, unpackBytesFromBytes E ((F.bytes E).take k) = .error e := by
  by_cases hk : k < 32
  · exact ⟨_, (C45_not_bloscpack E _ (.inl (by rw [List.length_take]; omega))).1⟩
  have hro : ∀ fp : FP, readOffsets F.header fp = (.error .overflowError, fp) := by
    intro fp
    unfold readOffsets
    unfold offsetsLen at hb
    split at hb
    · rename_i ho
      rw [if_pos ho, show F.header.totalProspectiveChunks = some (F.header.nchunks + F.header.max_app_chunks) from if_pos hn]
      exact Proc.bind_of_error (Proc.raiseIf_pos (by omega) _ _)
    · omega
  have hF : (F.bytes E).take k = F.header.bytes ++ ((F.secBytes E ++ F.offsets) ++ (F.body E ++ F.junk)).take (k - 32) := by
    rw [show F.bytes E = F.header.bytes ++ ((F.secBytes E ++ F.offsets) ++ (F.body E ++ F.junk)) by simp [File.bytes, File.front],
      List.take_append, F.header.bytes_length, List.take_of_length_le (by rw [F.header.bytes_length]; omega)]
  have hrd : ∃ e s, readBeginning E (Z [] ((F.bytes E).take k) []).toMemory = (.error e, s) := by
    unfold readBeginning
    have hh := MemSame.readBloscpackHeader (Z [] ((F.bytes E).take k) [])
    rw [hF, readHeader_ok hok hv [] _ []] at hh
    rw [hF, Proc.bind_of_ok hh]
    generalize hq : ((if F.header.metadata then do
      let r ← readMetadata E
      Proc.pure (r.1, some r.2)
    else Proc.pure (none, none) : Proc FP (Option μ × Option MetadataHeader))) (FP.toMemory (Z ([] ++ F.header.bytes) _ [])) = q
    obtain ⟨r, s⟩ := q
    cases r with
    | error e => exact ⟨e, s, Proc.bind_of_error hq⟩
    | ok mm => exact ⟨.overflowError, s, by rw [Proc.bind_of_ok hq]; exact Proc.bind_of_error (hro s)⟩
  obtain ⟨e, s, hrd⟩ := hrd
  refine ⟨e, ?_⟩
  unfold unpackBytesFromBytes unpackFP
  rw [show ({ data := (F.bytes E).take k, inMemory := true } : FP) = (Z [] ((F.bytes E).take k) []).toMemory from rfl, hrd]

/-! ### C26 -/

/-- The writes recorded for a packing run are what the file consists of, whatever the outcome: this connects the crash
states below to the files of `pack_bytes_to_file` and the other entry points. -/
theorem C26_writes (E : Env μ) (L : E.Laws) (data : Bytes) (cs : ChunkSizeArg) (md : Option μ) (a : BloscArgs)
    (b : BloscpackArgs) (m : MetadataArgs) (fs : FS) (out : String) (hw : fs.canWrite out = true)
    (n c l : Int) (hn : calculateNchunks data.length cs = .ok (n, c, l)) :
    ∃ r fp, packBytes E data cs md a b m = (r, some fp) ∧
      (packBytesToFile E fs data out cs md a b m).2.files out = some (Spec.replay [] fp.log) := by
  generalize hq : packBytes E data cs md a b m = q
  obtain ⟨r, o⟩ := q
  have hq' := hq
  unfold packBytes at hq'
  rw [hn] at hq'
  simp only [Prod.mk.injEq] at hq'
  obtain ⟨h1, h2⟩ := hq'
  subst h2
  refine ⟨r, _, rfl, ?_⟩
  rw [← (pack_crash_cases L hq).1]
  unfold packBytesToFile FS.openWrite
  rw [hn]
  simp only [hw, if_true]
  generalize pack E (plainFPSource { data := data }) (compressedFPSink E) n c l md a b m { fp := { data := [] } } = w
  obtain ⟨wr, s⟩ := w
  cases wr with
  | error e => simp [FS.put]
  | ok m' =>
    simp only [FS.getsize, FS.put, if_true]
    cases hsz : s.fp.data.length <;> simp

/-- C26: whenever packing is interrupted, in the middle of whichever write, unpacking what is in the file raises or
gives exactly the input and the metadata. This includes the runs that end with an exception of their own. -/
theorem C26_interrupted_pack (E : Env μ) (L : E.Laws) (data : Bytes) (cs : ChunkSizeArg) (md : Option μ) (a : BloscArgs)
    (b : BloscpackArgs) (m : MetadataArgs) (r : Except Err MetadataArgs) (fp : FP)
    (h : packBytes E data cs md a b m = (r, some fp)) (d : Bytes) (hc : Spec.Crashed [] fp.log d) :
    (∃ e, unpackBytesFromBytes E d = .error e) ∨ unpackBytesFromBytes E d = .ok (data, md) := by
  obtain ⟨-, before, hb, hor⟩ := pack_crash_cases L h
  have hbefore : Spec.Crashed [] before d →
      (∃ e, unpackBytesFromBytes E d = .error e) ∨ unpackBytesFromBytes E d = .ok (data, md) := by
    intro hcr
    rcases hb d hcr with rfl | ⟨hd, h1, h2, -, h3, k, hk, rfl⟩ | ⟨F, h1, h2, h3, h4, h5, h6, k, hk, rfl⟩ | ⟨F, h1, h2, h3, h4, h5, h6, k, hk, rfl⟩
    rotate_right
    · exact .inl (unpack_offsets_overflow h1 h2 h5 h6 k)
    · exact .inl ⟨_, (C45_not_bloscpack E _ (.inl (by decide))).1⟩
    · exact .inl (unpackFrom_header_cut h1 h2 h3 k hk)
    · rcases h6 with hlt | ⟨hv, rfl, rfl⟩
      · obtain ⟨e, o, he⟩ := unpackFrom_incomplete L h1 h2 hlt k hk
        exact .inl ⟨e, unpackBytes_error' he (h1.not_overshoots k)⟩
      · by_cases hlast : k = (F.bytes E).length
        · right
          rw [hlast, List.take_length]
          exact unpackBytes_ok (unpackFrom_file L hv)
        · have ht := unpackFrom_truncated L hv h2 h5 k (by omega)
          by_cases hx : k + (F.impl E).size = (F.bytes E).length
          · right
            exact unpackBytes_ok (ht.2 hx)
          · left
            obtain ⟨e, i, -, he⟩ := ht.1 hx
            exact ⟨e, unpackBytes_error' he (hv.toPre.not_overshoots k)⟩
  rcases hor with ⟨hl, -⟩ | ⟨-, -, w, hl, ht⟩
  · rw [hl] at hc; exact hbefore hc
  · rw [hl] at hc
    obtain ⟨p, bs⟩ := w
    rcases crashed_snoc hc with hc | ⟨t, rfl⟩
    · exact hbefore hc
    · obtain ⟨F, hv, rfl, rfl, he⟩ := ht t
      right
      rw [he]
      exact unpackBytes_ok (unpackFrom_file L hv)

/-! ### C25 -/

/-- C25: whenever packing with offsets is interrupted before its final write, or fails, every complete entry of the
offsets section in the file is -1 (eight bytes 0xff). The number of entries is given by the header fields nchunks and
max-app-chunks (bytes 16 to 31). The final write of a successful run is the last one of `fp.log`. -/
theorem C25_offsets_minus_one (E : Env μ) (L : E.Laws) (data : Bytes) (cs : ChunkSizeArg) (md : Option μ) (a : BloscArgs)
    (b : BloscpackArgs) (m : MetadataArgs) (r : Except Err MetadataArgs) (fp : FP) (hb : b.offsets = true)
    (h : packBytes E data cs md a b m = (r, some fp)) (d : Bytes)
    (hc : Spec.Crashed [] (if r.toOption.isSome then fp.log.dropLast else fp.log) d) (j : Nat)
    (hj : j < leDecode (slice d 16 24) + leDecode (slice d 24 32))
    (hlen : Spec.offsetsStart Spec.checksumSizes d + 8 * (j + 1) ≤ d.length) :
    slice d (Spec.offsetsStart Spec.checksumSizes d + 8 * j) (Spec.offsetsStart Spec.checksumSizes d + 8 * (j + 1)) =
      List.replicate 8 255 := by
  obtain ⟨-, before, hbef, hor⟩ := pack_crash_cases L h
  have hcr : Spec.Crashed [] before d := by
    rcases hor with ⟨hl, hr⟩ | ⟨-, ⟨m', rfl⟩, w, hl, -⟩
    · obtain ⟨e, rfl⟩ := hr hb
      rw [hl] at hc
      exact hc
    · rw [hl] at hc
      simpa [Except.toOption] using hc
  have h32 : 32 ≤ Spec.offsetsStart Spec.checksumSizes d := by unfold Spec.offsetsStart; split <;> omega
  rcases hbef d hcr with rfl | ⟨hd, h1, h2, -, h3, k, hk, rfl⟩ | ⟨F, h1, h2, h3, h4, h5, -, k, hk, rfl⟩ | ⟨F, h1, h2, h3, h4, h5, h6, k, hk, rfl⟩
  rotate_right
  · exfalso
    have hbl := F.header.bytes_length
    rw [List.length_take] at hlen
    have h5b : ((F.bytes E).take k)[5]? = some (Spec.optionsByte F.header.offsets F.header.metadata) := by
      rw [List.getElem?_take_of_lt (by omega), show F.bytes E = F.header.bytes ++ (F.secBytes E ++ F.offsets ++ (F.body E ++ F.junk)) by simp [File.bytes, File.front],
        List.getElem?_append_left (by omega), header_byte5]
    have h64 : F.header.metadata = true → 64 ≤ k := by
      intro hm
      have : 64 ≤ Spec.offsetsStart Spec.checksumSizes ((F.bytes E).take k) := by
        unfold Spec.offsetsStart
        rw [h5b, Option.getD_some, if_pos (by rw [optionsByte_bit]; exact hm)]
        omega
      omega
    rw [offsetsStart_file L h3 h4 k (by omega) h64] at hlen
    omega
  · simp at hlen
  · rw [List.length_take, hd.bytes_length] at hlen; omega
  · rw [List.length_take] at hlen
    have hF : F.bytes E = F.header.bytes ++ (F.secBytes E ++ (F.offsets ++ (F.body E ++ F.junk))) := by
      simp [File.bytes, File.front]
    have hbl := F.header.bytes_length
    have h5b : ((F.bytes E).take k)[5]? = some (Spec.optionsByte F.header.offsets F.header.metadata) := by
      rw [List.getElem?_take_of_lt (by omega), hF, List.getElem?_append_left (by omega), header_byte5]
    have h64 : F.header.metadata = true → 64 ≤ k := by
      intro hm
      have : 64 ≤ Spec.offsetsStart Spec.checksumSizes ((F.bytes E).take k) := by
        unfold Spec.offsetsStart
        rw [h5b, Option.getD_some, if_pos (by rw [optionsByte_bit]; exact hm)]
        omega
      omega
    have hstart := offsetsStart_file L h1.meta_flag h1.sec_ok k (by omega) h64
    rw [hstart] at hlen ⊢
    have hs1 : slice ((F.bytes E).take k) 16 24 = Spec.leBytes 8 F.header.nchunks := by
      rw [slice_take _ _ _ _ (by omega), hF, slice_append_left _ _ _ _ (by omega), (header_counts _).1]
    have hs2 : slice ((F.bytes E).take k) 24 32 = Spec.leBytes 8 F.header.max_app_chunks := by
      rw [slice_take _ _ _ _ (by omega), hF, slice_append_left _ _ _ _ (by omega), (header_counts _).2]
    obtain ⟨o1, o2, o3, o4, o5, o6, o7, o8, o9, o10⟩ := h1.ok
    rw [hs1, hs2, leDecode_leBytes (by omega) (by omega), leDecode_leBytes (by omega) (by omega)] at hj
    rw [slice_take _ _ _ _ (by omega), hF]
    have hoff : F.offsets = List.replicate (8 * (F.header.nchunks + F.header.max_app_chunks).toNat) 255 := by
      rw [h4, placeholder, h3, hb, if_pos rfl, int64s_minus_one]
    rw [slice_append_right _ _ _ _ (by omega), hbl, slice_append_right _ _ _ _ (by omega),
      slice_append_left _ _ _ _ (by rw [hoff, List.length_replicate]; omega), hoff]
    have e1 : 32 + (F.secBytes E).length + 8 * j - 32 - (F.secBytes E).length = 8 * j := by omega
    have e2 : 32 + (F.secBytes E).length + 8 * (j + 1) - 32 - (F.secBytes E).length = 8 * j + 8 := by omega
    rw [e1, e2]
    simp only [slice, List.drop_replicate, List.take_replicate]
    congr 1
    omega

/-- a run of 17 writes: two chunks with metadata and offsets. Before the last one the offsets section (2 + 1 entries, at
byte 76) is complete and all -1, and the file already unpacks; before the last chunk it does not. At the end the first
two entries are 100 and 122. -/
example : (packBytes Toy.env [1, 2, 3] (.int 2) (some 5) {} { max_app_chunks := .int 1 }
      { max_meta_size := .int 12, meta_checksum := "None" }).2.map (fun fp =>
    (fp.log.length, Spec.offsetsStart Spec.checksumSizes (Spec.replay [] (fp.log.take 16)),
      slice (Spec.replay [] (fp.log.take 16)) 76 100, slice (Spec.replay [] fp.log) 76 92)) =
    some (17, 76, List.replicate 24 255, [100, 0, 0, 0, 0, 0, 0, 0, 122, 0, 0, 0, 0, 0, 0, 0]) := by
  decide +kernel

example : (packBytes Toy.env [1, 2, 3] (.int 2) (some 5) {} { max_app_chunks := .int 1 }
      { max_meta_size := .int 12, meta_checksum := "None" }).2.map (fun fp =>
    [(unpackBytesFromBytes Toy.env (Spec.replay [] (fp.log.take 14))).toOption,
      (unpackBytesFromBytes Toy.env (Spec.replay [] (fp.log.take 16))).toOption]) =
    some [none, some ([1, 2, 3], some 5)] := by
  decide +kernel

end Bloscpack
