import Verif.Lemmas.PackFile
import Verif.Spec.Settings
/-
Packing with valid settings returns.
-/
namespace Bloscpack
variable {μ : Type}

theorem prepareMetadata_total {E : Env μ} (L : E.Laws) {md : Option μ} {m : MetadataArgs} (hm : md.isSome)
    (hg : Spec.GoodMetadata E md m) : ∃ S, prepareMetadata E md m = .ok S := by
  rcases hg with rfl | ⟨h1, h2, h3, h4, h5, s, room, h6, h7, h8, h9⟩
  · cases hm
  have hser : serializerLookup m.magic_format = .ok () := by rw [h1]; decide
  have hlen : (encodeUtf8 s).length = s.length := utf8_ascii s (L.dumps_ascii _ _ h6)
  have hcod : m.meta_codec = "None" ∨ m.meta_codec = "zlib" := by simpa [Spec.codecNames] using h3
  -- the choice of the body
  have hbody : ∃ body args', (do
      if m.shouldCompress then
        let comp ← codecCompress E m.meta_codec (encodeUtf8 s) m.meta_level
        let meta_comp_size : Int := comp.length
        if (s.length : Int) < meta_comp_size then
          return (encodeUtf8 s, (s.length : Int), m.nullifyCodec)
        else
          return (comp, meta_comp_size, m)
      else
        return (encodeUtf8 s, (s.length : Int), m) : Except Err (Bytes × Int × MetadataArgs)) =
        .ok (body, (body.length : Int), args') ∧ (body.length : Int) ≤ s.length ∧
      args'.magic_format = m.magic_format ∧ args'.meta_checksum = m.meta_checksum ∧ args'.meta_level = m.meta_level ∧
      args'.max_meta_size = m.max_meta_size ∧ args'.meta_codec ∈ Spec.codecNames := by
    rcases hcod with hc | hc
    · have : m.shouldCompress = false := by simp [MetadataArgs.shouldCompress, hc]
      refine ⟨encodeUtf8 s, m, ?_, by omega, rfl, rfl, rfl, rfl, h3⟩
      simp [this, hlen]
    · have : m.shouldCompress = true := by simp [MetadataArgs.shouldCompress, hc]
      obtain ⟨c, hz⟩ := L.zcompress_total (encodeUtf8 s) m.meta_level h4 h5
      have hz' : codecCompress E m.meta_codec (encodeUtf8 s) m.meta_level = .ok c := by simp [codecCompress, hc, hz]
      simp only [this, if_true, hz', Except.ok_bind']
      by_cases hlt : (s.length : Int) < c.length
      · refine ⟨encodeUtf8 s, m.nullifyCodec, ?_, by omega, rfl, rfl, rfl, rfl, (by decide : "None" ∈ Spec.codecNames)⟩
        simp only [if_pos hlt, hlen, Except.pure_eq]
      · refine ⟨c, m, ?_, by omega, rfl, rfl, rfl, rfl, h3⟩
        simp only [if_neg hlt, Except.pure_eq]
  obtain ⟨body, args', hb, hbl, e1, e2, e3, e4, e5⟩ := hbody
  have hmx : args'.effectiveMaxMetaSize s.length = .ok room := by
    unfold MetadataArgs.effectiveMaxMetaSize
    rw [e4]
    rcases h7 with h7 | ⟨f, h7, h7'⟩
    · rw [h7]
    · rw [h7]; simp [h7']
  have hok : MetadataHeader.OK ⟨args'.magic_format, createMetadataOptions, args'.meta_checksum, args'.meta_codec,
      args'.meta_level, s.length, room, body.length, []⟩ := by
    refine ⟨?_, (by decide : createMetadataOptions.length = 8 ∧ ∀ c ∈ createMetadataOptions, c = '0' ∨ c = '1'), ?_, e5, ?_, ?_, ?_, ?_, ?_⟩
    · show args'.magic_format.length ≤ 8
      rw [e1, h1]; decide
    · show args'.meta_checksum ∈ _
      rw [e2]; exact h2
    · show 0 ≤ args'.meta_level ∧ _
      rw [e3]; exact ⟨h4, h5⟩
    · show (0 : Int) ≤ s.length ∧ (s.length : Int) ≤ _
      omega
    · show (0 : Int) ≤ room ∧ room ≤ _
      omega
    · show (0 : Int) ≤ body.length ∧ (body.length : Int) ≤ _
      omega
    · show (0 : Nat) ≤ 8
      omega
  obtain ⟨impl, himpl, -⟩ := checksumLookup_of (hl := E.hashlib) h2
  unfold prepareMetadata
  simp only [args_keys_ok, Except.ok_bind', hser, h6]
  rw [hb]
  simp only [Except.ok_bind', hmx]
  rw [if_neg (by omega)]
  rw [(MetadataHeader.new_iff _ _).2 ⟨hok, rfl⟩]
  simp only [Except.ok_bind']
  rw [MetadataHeader.encode_ok hok]
  simp only [Except.ok_bind', e2, himpl]
  by_cases hn : m.meta_checksum ≠ "None"
  · rw [if_pos hn]; exact ⟨_, rfl⟩
  · rw [if_neg hn]; exact ⟨_, rfl⟩

theorem positions_lt (f : Bytes → Bytes) (k : Nat) (cs : List Bytes) (bound : Nat)
    (h : ∀ c ∈ cs, c.length + (f c).length ≤ k) (start : Nat) (hb : start + cs.length * k ≤ bound) :
    ∀ o ∈ Spec.positions f start cs, 0 ≤ o ∧ o ≤ bound := by
  induction cs generalizing start with
  | nil => simp [Spec.positions]
  | cons c cs ih =>
    intro o ho
    simp only [Spec.positions, List.mem_cons] at ho
    simp only [List.length_cons, Nat.succ_mul] at hb
    have := h c List.mem_cons_self
    rcases ho with rfl | ho
    · omega
    · exact ih (fun c hc => h c (List.mem_cons_of_mem _ hc)) _ (by omega) o ho

/-- total size of the chunks of a packing run -/
theorem records_length_le {E : Env μ} (L : E.Laws) {impl : Hash} (hi : impl ∈ checksums E.hashlib) (a : BloscArgs)
    (chs : List (Bytes × Bytes)) (hc : ∀ p ∈ chs, E.compress p.2 a = .ok p.1) :
    (Spec.records impl.function (chs.map (·.1))).length ≤ (chs.map (·.2)).flatten.length + chs.length * (16 + impl.size) := by
  induction chs with
  | nil => simp
  | cons p ps ih =>
    have h1 := (L.compress_header _ _ _ (hc p List.mem_cons_self)).2.1
    have h2 := Hash.size_eq L hi p.1
    have h3 := ih (fun q hq => hc q (List.mem_cons_of_mem _ hq))
    simp only [List.map_cons, records_cons, List.length_append, List.flatten_cons, List.length_cons, Nat.succ_mul]
    omega

theorem positions_le_records (f : Bytes → Bytes) (cs : List Bytes) (start : Nat) :
    ∀ o ∈ Spec.positions f start cs, (start : Int) ≤ o ∧ o ≤ start + (Spec.records f cs).length := by
  induction cs generalizing start with
  | nil => simp [Spec.positions]
  | cons c cs ih =>
    intro o ho
    simp only [Spec.positions, List.mem_cons] at ho
    simp only [records_cons, List.length_append]
    rcases ho with rfl | ho
    · omega
    · have := ih _ o ho; omega

theorem Hash.size_le {hl : String → Bytes → Bytes} {impl : Hash} (hi : impl ∈ checksums hl) : impl.size ≤ 64 := by
  simp only [checksums, List.mem_cons, List.not_mem_nil, or_false] at hi
  rcases hi with rfl | rfl | rfl | rfl | rfl | rfl | rfl | rfl | rfl <;> simp

theorem Section.bytes_le {E : Env μ} (L : E.Laws) {s : Section μ} (hv : s.Valid E) : (s.bytes E).length ≤ 2 ^ 33 := by
  have h1 := Section.bytes_length L hv
  have h2 := Hash.size_le (Section.lookup hv).2.1
  have h3 := hv.ok.2.2.2.2.2.2.1.2
  omega

theorem packBytes_total {E : Env μ} (L : E.Laws) (data : Bytes) (cs : ChunkSizeArg) (md : Option μ) (a : BloscArgs)
    (b : BloscpackArgs) (m : MetadataArgs) (hg : Spec.GoodSettings E data.length cs a b) (hm : Spec.GoodMetadata E md m) :
    ∃ m' fp, packBytes E data cs md a b m = (.ok m', some fp) := by
  have hsmall := hg.small
  have hcalc : ∃ r, calculateNchunks data.length cs = .ok r := by
    have hB : BLOSC_MAX_BUFFERSIZE = 2 ^ 31 - 17 := by decide
    obtain ⟨-, c2, -, -, c5⟩ := C03_chunking_rejected data.length cs
    by_cases hz : data.length = 0
    · exact ⟨_, c2 (by omega)⟩
    · obtain ⟨v, hv1, hv2, hv3⟩ := hg.chunk hz
      refine ((c5 (by omega) v hv1).2 ⟨hv2, by omega⟩).2 ?_
      have : 1 * (2 ^ 63 - 1 : Int) ≤ v * (2 ^ 63 - 1) := Int.mul_le_mul_of_nonneg_right hv2 (by omega)
      omega
  rcases packBytes_run L data cs md a b m with ⟨e, h0, -⟩ | ⟨n, c, l, h0, hh⟩
  · obtain ⟨r, hr⟩ := hcalc; rw [hr] at h0; cases h0
  obtain ⟨h1, h2, -, h4, -, h5, h6⟩ := C02_chunking_covers _ _ _ _ _ h0
  have hcl : 0 ≤ l ∧ 0 ≤ c ∧ c ≤ 2 ^ 31 - 17 ∧ n ≤ 2 ^ 50 := by
    by_cases hz : (data.length : Int) = 0
    · have := h5 hz; omega
    · obtain ⟨q1, v, q2, q3, q4, q5⟩ := h6 hz
      obtain ⟨v', r1, r2, r3⟩ := hg.chunk (by omega)
      have hvv : v = v' := by
        rcases q2 with rfl | ⟨s, rfl, hs⟩
        · rcases r1 with r1 | ⟨s, r1, -⟩
          · cases r1; rfl
          · cases r1
        · rcases r1 with r1 | ⟨s', r1, hs'⟩
          · cases r1
          · cases r1; rw [hs] at hs'; cases hs'; rfl
      subst hvv
      have : (data.length : Int) * 1 ≤ data.length * v := Int.mul_le_mul_of_nonneg_left r2 (by omega)
      have := q5 data.length (by omega)
      omega
  have happ : ∃ w, handleMaxApps b.offsets n b.max_app_chunks = .ok w ∧ 0 ≤ w ∧ (b.offsets = true → w < 2 ^ 59) ∧ n + w ≤ 2 ^ 63 - 1 := by
    cases ho : b.offsets with
    | false => exact ⟨0, C32_ignored false n _ (by omega) (by omega) (.inl rfl), by omega, by simp, by omega⟩
    | true =>
      obtain ⟨w, w1, w2, w3⟩ := hg.apps ho n h2 hcl.2.2.2
      refine ⟨_, C32_exact true n _ w (by omega) (by omega) rfl w1 w2 (fun _ _ => by omega), ?_, ?_, ?_⟩
      · omega
      · intro _; omega
      · omega
  obtain ⟨w, hw, hw0, hw1, hw2⟩ := happ
  have hhdr : ∃ h, packHeader n c l md a b = .ok h := by
    unfold packHeader
    rw [hw, Except.ok_bind']
    refine ⟨_, (BloscpackHeader.new_iff _ _).2 ⟨⟨?_, hg.checksum, ?_, ?_, ?_, ?_, ?_, ?_, ?_, ?_⟩, rfl⟩⟩
    · simp [FORMAT_VERSION]
    · have := hg.blosc.1; have := hg.blosc.2.1; exact ⟨by show 0 ≤ a.typesize; omega, by show a.typesize ≤ _; omega⟩
    · exact ⟨by show -1 ≤ c; omega, by show c ≤ _; omega⟩
    · exact ⟨by show -1 ≤ l; omega, by show l ≤ _; omega⟩
    · exact ⟨by show -1 ≤ n; omega, by show n ≤ _; omega⟩
    · exact ⟨hw0, by show w ≤ _; omega⟩
    · intro _; exact hw2
    · intro hx; have hx : n = -1 := hx; omega
    · intro _ _; exact h4
  rcases hh with ⟨e, he, -⟩ | ⟨h, r, fp, init, tl, g1, g2, g3, g4, g5, g6, g7, g8, g9⟩
  · obtain ⟨h, hh⟩ := hhdr; rw [hh] at he; cases he
  obtain ⟨k1, k2, k3, k4, k5, k6, k7, k8, k9, k10⟩ := packHeader_ok g1
  rw [hw] at k10
  cases k10
  have hitems : ∀ d ∈ init ++ [tl], (d.length : Int) ≤ BLOSC_MAX_BUFFERSIZE := by
    have hB : BLOSC_MAX_BUFFERSIZE = 2 ^ 31 - 17 := by decide
    intro d hd
    rcases List.mem_append.1 hd with hd | hd
    · have := g5 d hd; omega
    · simp at hd; subst hd; omega
  cases g3 with
  | metadata e _ hm' he hfp =>
    exfalso
    obtain ⟨S, hS⟩ := prepareMetadata_total L hm' hm
    rw [hS] at he; cases he
  | space sec m' hs hb _ hfp =>
    exfalso
    unfold offsetsLen at hb
    split at hb
    · rename_i ho
      have := hw1 (by rw [← k3]; exact ho)
      omega
    · omega
  | chunk sec m' hs hb chs d rest e hi hc he _ hfp =>
    exfalso
    obtain ⟨x, hx⟩ := L.compress_total d a hg.blosc (hitems d (by rw [← hi]; simp))
    rw [hx] at he; cases he
  | offset sec m' hs hb chs e hi hc ho he _ hd hl =>
    exfalso
    have hpre := baseFile_pre (chs := chs) L k1 k2 hs.valid (by rw [k4, hs.isSome]) hb (by
      rw [k9]; have := congrArg List.length hi; simp at this; omega) hc
    have himem := (File.lookup hpre).2.1
    have hrec := records_length_le L himem a chs hc
    have hdl : (chs.map (·.2)).flatten.length = data.length := by rw [hi, g7]
    have hcl2 : (chs.length : Int) = n := by have := congrArg List.length hi; simp at this; omega
    have hsz := Hash.size_le himem
    have hfront : ((baseFile h sec chs).front E).length ≤ 32 + 2 ^ 33 + 8 * (2 ^ 50 + 2 ^ 59) := by
      unfold File.front
      rw [List.length_append, List.length_append, BloscpackHeader.bytes_length]
      have : ((baseFile h sec chs).secBytes E).length ≤ 2 ^ 33 := by
        unfold File.secBytes baseFile
        cases hsec : sec with
        | none => simp
        | some s => exact Section.bytes_le L (hs.valid s hsec)
      have h3 : (baseFile h sec chs).offsets.length = offsetsLen h := placeholder_length h
      rw [h3]
      unfold offsetsLen
      rw [if_pos ho]
      have hob : b.offsets = true := by rw [← k3]; exact ho
      have := hw1 hob
      omega
    have : chs.length * (16 + ((baseFile h sec chs).impl E).size) ≤ chs.length * 80 := Nat.mul_le_mul_left _ (by omega)
    have hall : ∀ o ∈ Spec.positions ((baseFile h sec chs).impl E).function ((baseFile h sec chs).front E).length (chs.map (·.1)),
        -2 ^ 63 ≤ o ∧ o ≤ 2 ^ 63 - 1 := by
      intro o ho'
      have := positions_le_records _ _ _ o ho'
      omega
    rw [(encodeOffsets_iff _ _).2 ⟨hall, rfl⟩] at he
    cases he
  | plain sec m' hs chs hi hc ho _ hfp => exact ⟨_, _, g2⟩
  | full sec m' hs chs hi hc ho raw he _ hd hl hp => exact ⟨_, _, g2⟩

end Bloscpack
