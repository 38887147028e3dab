import Verif.Lemmas.Crash
import Verif.Lemmas.Rewrite
import Verif.Lemmas.Logged
import Verif.Props.AppendCrash
/-
C58: what is left of a file when rewriting its metadata is interrupted.
-/
namespace Bloscpack
variable {μ : Type} {E : Env μ} {F : File μ}

/-! ### mixtures of two byte strings -/

theorem slice_mix {a b : Bytes} (hl : a.length = b.length) {k : Nat} (hk : k ≤ a.length) (i j : Nat) :
    slice (a.take k ++ b.drop k) i j = (slice a i j).take (k - i) ++ (slice b i j).drop (k - i) := by
  apply List.ext_getElem?
  intro n
  simp only [slice, List.getElem?_take, List.getElem?_drop, List.getElem?_append, List.length_take, List.length_drop]
  by_cases h1 : n < j - i
  · by_cases h2 : i + n < min k a.length
    · rw [if_pos h1, if_pos h2, if_pos (by omega), if_pos (by omega), if_pos (by omega), if_pos (by omega)]
    · rw [if_pos h1, if_neg h2]
      by_cases h4 : a.length ≤ i + n
      · rw [List.getElem?_eq_none (by omega)]
        rw [if_neg (by omega)]
        split
        · rw [List.getElem?_eq_none (by omega)]
        · rfl
      · rw [if_neg (by omega), if_pos (by omega)]
        congr 1; omega
  · rw [if_neg h1]
    split
    · split <;> rfl
    · split
      · rw [List.getElem?_eq_none (by omega)]
      · rfl

theorem mix_four {a b c : Bytes} (ha : a.length = 4) (hb : b.length = 4) (j : Nat) (hc : c = a.take j ++ b.drop j) :
    leDecode c ≤ leDecode a + leDecode b := by
  match a, ha, b, hb with
  | [a0, a1, a2, a3], _, [b0, b1, b2, b3], _ =>
    subst hc
    match j with
    | 0 => simp [leDecode]; 
    | 1 => simp [leDecode]; omega
    | 2 => simp [leDecode]; omega
    | 3 => simp [leDecode]; omega
    | j + 4 => simp [leDecode]

theorem MetadataHeader.decode_parts {b : Bytes} {h : MetadataHeader} (hd : MetadataHeader.decode b = .ok h) :
    (∃ x, byteAt b 9 = .ok x ∧ nameAt checksumsAvail x.toNat = .ok h.meta_checksum) ∧
    decodeUInt32 (slice b 16 20) = .ok h.max_meta_size ∧ decodeUInt32 (slice b 20 24) = .ok h.meta_comp_size := by
  have hlen := (MetadataHeader.decode_ok hd).2
  unfold MetadataHeader.decode at hd
  rw [if_neg (by simp [hlen])] at hd
  simp only [Except.bind_ok_iff] at hd
  obtain ⟨_, _, x, hx, c, hc, _, _, _, _, _, _, _, _, m, hm, n, hn, hnew⟩ := hd
  obtain ⟨h1, h2⟩ := (MetadataHeader.new_iff _ _).1 hnew
  subst h2
  exact ⟨⟨x, hx, hc⟩, hm, hn⟩

/-- the header of a half rewritten section: its reserved space is the old one, its checksum is the old or the new one, and
the announced size is at most the sum of the two -/
theorem mixed_header {o n h : MetadataHeader} (ho : MetadataHeader.decode o.bytes = .ok o)
    (hn : MetadataHeader.decode n.bytes = .ok n) (hmax : n.max_meta_size = o.max_meta_size) {k : Nat}
    (hk : k ≤ 32) (hd : MetadataHeader.decode (n.bytes.take k ++ o.bytes.drop k) = .ok h) :
    h.max_meta_size = o.max_meta_size ∧ (h.meta_checksum = o.meta_checksum ∨ h.meta_checksum = n.meta_checksum) ∧
    h.meta_comp_size ≤ n.meta_comp_size + o.meta_comp_size := by
  obtain ⟨⟨x, h1, h2⟩, h3, h4⟩ := MetadataHeader.decode_parts hd
  obtain ⟨⟨xo, o1, o2⟩, o3, o4⟩ := MetadataHeader.decode_parts ho
  obtain ⟨⟨xn, n1, n2⟩, n3, n4⟩ := MetadataHeader.decode_parts hn
  have ln := n.bytes_length
  have lo := o.bytes_length
  have hlen : n.bytes.length = o.bytes.length := by rw [ln, lo]
  have hk' : k ≤ n.bytes.length := by omega
  refine ⟨?_, ?_, ?_⟩
  · rw [slice_mix hlen hk'] at h3
    have : slice n.bytes 16 20 = slice o.bytes 16 20 := by
      rw [(decodeUInt32_iff.1 n3).2.2, (decodeUInt32_iff.1 o3).2.2, hmax]
    rw [this, List.take_append_drop, o3] at h3
    exact (Except.ok.inj h3).symm
  · unfold byteAt at h1 o1 n1
    by_cases h9 : 9 < k
    · right
      rw [List.getElem?_append_left (by simp; omega), List.getElem?_take_of_lt h9, n1] at h1
      cases h1
      rw [n2] at h2
      exact (Except.ok.inj h2).symm
    · left
      rw [List.getElem?_append_right (by simp; omega), List.getElem?_drop] at h1
      have e : k + (9 - (n.bytes.take k).length) = 9 := by simp; omega
      rw [e, o1] at h1
      cases h1
      rw [o2] at h2
      exact (Except.ok.inj h2).symm
  · have key := mix_four (a := slice n.bytes 20 24) (b := slice o.bytes 20 24) (by simp [slice, ln]) (by simp [slice, lo])
      (k - 20) (slice_mix hlen hk' 20 24)
    have hu : ∀ {b : Bytes} {v : Int}, decodeUInt32 b = .ok v → v = leDecode b := by
      intro b v h
      unfold decodeUInt32 unpackUnsigned at h
      split at h
      · exact (Except.ok.inj h).symm
      · cases h
    rw [hu h4, hu n4, hu o4]
    omega

/-- sequential writes into a file: a crash leaves a part of the new bytes, followed by the old ones -/
theorem crashed_inside {A S R : Bytes} {bss : List Bytes} (hlen : bss.flatten.length = S.length) {d : Bytes}
    (h : Spec.Crashed (A ++ (S ++ R)) (seqLog A.length bss) d) :
    ∃ k, k ≤ S.length ∧ d = A ++ ((bss.flatten.take k ++ S.drop k) ++ R) := by
  rcases h with rfl | ⟨done, p, bs, todo, t, h1, rfl⟩
  · exact ⟨0, by omega, by simp⟩
  · obtain ⟨x, y, rfl, rfl, rfl⟩ := seqLog_split _ _ h1
    rw [replay_seqLog_over, ← List.append_assoc A, ← List.length_append, overlay_append]
    simp only [List.flatten_append, List.flatten_cons, List.length_append] at hlen
    refine ⟨x.flatten.length + min t bs.length, by omega, ?_⟩
    have hm : bs.take t = bs.take (min t bs.length) := by
      by_cases ht : t ≤ bs.length
      · rw [Nat.min_eq_left ht]
      · rw [Nat.min_eq_right (by omega), List.take_of_length_le (by omega), List.take_length]
    have hle : min t bs.length ≤ bs.length := Nat.min_le_right _ _
    rw [List.length_take, hm]
    generalize min t bs.length = k at hle
    rw [List.flatten_append, List.flatten_cons, List.take_length_add_append, List.take_append_of_le_length hle,
      List.drop_drop, List.drop_append_of_le_length (by omega)]
    simp [List.append_assoc]

/-- between two writes: the header is the old one or the new one -/
theorem stopped_inside {A S R : Bytes} {b : Bytes} {bss : List Bytes} (hlen : (b :: bss).flatten.length = S.length) {d : Bytes}
    (h : Spec.StoppedBetween (A ++ (S ++ R)) (seqLog A.length (b :: bss)) d) :
    d = A ++ (S ++ R) ∨ ∃ k, b.length ≤ k ∧ k ≤ S.length ∧ d = A ++ (((b :: bss).flatten.take k ++ S.drop k) ++ R) := by
  obtain ⟨done, todo, h1, rfl⟩ := h
  obtain ⟨x, y, h2, rfl⟩ := seqLog_prefix _ _ h1
  cases x with
  | nil => exact .inl rfl
  | cons b' x =>
    simp only [List.cons_append, List.cons.injEq] at h2
    obtain ⟨rfl, rfl⟩ := h2
    right
    rw [replay_seqLog_over, ← List.append_assoc A]
    simp only [List.flatten_cons, List.flatten_append, List.length_append] at hlen ⊢
    refine ⟨b.length + x.flatten.length, by omega, by omega, ?_⟩
    rw [List.drop_append_of_le_length (by omega), ← List.append_assoc b, ← List.length_append, List.take_left]
    simp

/-- reading a section of the right size, whatever its contents: an error, or one ends up behind it -/
theorem readMetadata_place (L : E.Laws) (A S R : Bytes) (l) {h : MetadataHeader} (hd : MetadataHeader.decode (S.take 32) = .ok h)
    {impl : Hash} (hi : checksumLookup E.hashlib h.meta_checksum = .ok impl)
    (hlen : (S.length : Int) = 32 + h.max_meta_size + impl.size)
    (hfit : h.meta_comp_size ≤ h.max_meta_size + impl.size + R.length) :
    (∃ e fp, readMetadata E (Z A (S ++ R) l) = (.error e, fp)) ∨
    ∃ m, readMetadata E (Z A (S ++ R) l) = (.ok (m, h), Z (A ++ S) R l) := by
  obtain ⟨hok, h32⟩ := MetadataHeader.decode_ok hd
  have hmem := (checksumLookup_mem hi)
  obtain ⟨-, -, -, -, -, -, o1, o2, -⟩ := hok
  have hS : 32 ≤ S.length := by simp at h32; omega
  obtain ⟨X, Y, rfl, hX⟩ : ∃ X Y, S = X ++ Y ∧ X.length = 32 := ⟨S.take 32, S.drop 32, by simp, by simpa using h32⟩
  rw [List.take_left' hX] at hd
  simp only [List.length_append] at hlen
  have e1 : fpRead METADATA_HEADER_LENGTH (Z A ((X ++ Y) ++ R) l) = (.ok X, Z (A ++ X) (Y ++ R) l) := by
    rw [List.append_assoc]; exact fpRead_exact _ _ _ _ _ (by rw [hX]; rfl)
  obtain ⟨k, hk⟩ : ∃ k : Nat, h.meta_comp_size = k := ⟨h.meta_comp_size.toNat, by omega⟩
  obtain ⟨m, hm⟩ : ∃ m : Nat, h.max_meta_size = m := ⟨h.max_meta_size.toNat, by omega⟩
  rw [hk] at hfit
  rw [hm] at hfit hlen
  have e2 : fpRead h.meta_comp_size (Z (A ++ X) (Y ++ R) l) =
      (.ok ((Y ++ R).take k), Z (A ++ X ++ (Y ++ R).take k) ((Y ++ R).drop k) l) := by rw [hk]; exact fpRead_Z _ _ _ _
  have e3 : fpSeekRel (h.max_meta_size - h.meta_comp_size) (Z (A ++ X ++ (Y ++ R).take k) ((Y ++ R).drop k) l) =
      (.ok (), Z (A ++ X ++ Y.take m) (Y.drop m ++ R) l) := by
    apply fpSeekRel_Z
    · simp only [List.append_assoc, List.take_append_drop]
      rw [← List.append_assoc (Y.take m), List.take_append_drop]
    · rw [hk, hm]; simp; omega
  unfold readMetadata
  rw [Proc.bind_of_ok e1, Proc.bind_of_ok (Proc.ofExcept_apply _ _ |>.trans (by rw [hd])),
    Proc.bind_of_ok e2, Proc.bind_of_ok e3]
  generalize (Y ++ R).take k = body
  by_cases hn : h.meta_checksum ≠ "None"
  · rw [if_pos hn, Proc.bind_of_ok (Proc.ofExcept_apply _ _ |>.trans (by rw [hi])),
      Proc.bind_of_ok (fpRead_exact _ _ _ _ _ (by simp; omega))]
    by_cases hc : impl.function body ≠ Y.drop m
    · exact .inl ⟨_, _, Proc.bind_of_error (Proc.raiseIf_pos hc _ _)⟩
    · rw [Proc.bind_of_ok (Proc.raiseIf_neg hc _ _)]
      cases hload : loadMetadata E h body with
      | error e => exact .inl ⟨_, _, Proc.bind_of_error (Proc.ofExcept_apply _ _)⟩
      | ok v =>
        right
        refine ⟨v, ?_⟩
        rw [Proc.bind_of_ok (Proc.ofExcept_apply _ _)]
        simp only [List.append_assoc, List.take_append_drop]
        rfl
  · rw [if_neg hn]
    cases hload : loadMetadata E h body with
    | error e => exact .inl ⟨_, _, Proc.bind_of_error (Proc.ofExcept_apply _ _)⟩
    | ok v =>
      right
      refine ⟨v, ?_⟩
      have hz : impl.size = 0 := by
        rw [Hash.size_zero hmem.1, hmem.2]
        exact Decidable.not_not.1 hn
      have hY : Y.drop m = [] := List.drop_eq_nil_of_le (by omega)
      have hY' : Y.take m = Y := List.take_of_length_le (by omega)
      rw [Proc.bind_of_ok (Proc.ofExcept_apply _ _), hY, hY']
      simp only [List.append_assoc, List.nil_append]
      rfl

/-- unpacking a file whose metadata section was replaced by anything that can be read as such -/
theorem unpack_section (L : E.Laws) (hv : F.Valid E) (hsec : F.sec.isSome) (S : Bytes) :
    (∀ e fp, readMetadata E (Z F.header.bytes (S ++ (F.offsets ++ (F.body E ++ F.junk)))) = (.error e, fp) →
      ¬ OvershootsAt (F.header.bytes ++ (S ++ (F.offsets ++ (F.body E ++ F.junk)))) →
      unpackBytesFromBytes E (F.header.bytes ++ (S ++ (F.offsets ++ (F.body E ++ F.junk)))) = .error e) ∧
    ∀ m h, readMetadata E (Z F.header.bytes (S ++ (F.offsets ++ (F.body E ++ F.junk)))) =
        (.ok (m, h), Z (F.header.bytes ++ S) (F.offsets ++ (F.body E ++ F.junk))) →
      unpackBytesFromBytes E (F.header.bytes ++ (S ++ (F.offsets ++ (F.body E ++ F.junk)))) = .ok (F.data, m) := by
  have hn : 0 ≤ F.header.nchunks := by have := hv.nchunks_le; omega
  have hm : 0 ≤ F.header.max_app_chunks := hv.ok.2.2.2.2.2.2.1.1
  obtain ⟨os, h1, -, -, -⟩ := readOffsets_ok hn hm (F.header.bytes ++ S) F.offsets (F.body E ++ F.junk) [] hv.offsets_len hv.offsets_small
  have hf2 : F.header.metadata = true := by rw [hv.meta_flag, hsec]
  obtain ⟨hl1, hl2, -⟩ := File.lookup hv.toPre
  have hz : ({ data := F.header.bytes ++ (S ++ (F.offsets ++ (F.body E ++ F.junk))) } : FP) =
    Z [] (F.header.bytes ++ (S ++ (F.offsets ++ (F.body E ++ F.junk)))) [] := rfl
  constructor
  · intro e fp he hov
    have hb : readBeginning E (Z [] (F.header.bytes ++ (S ++ (F.offsets ++ (F.body E ++ F.junk)))) []) = (.error e, fp) := by
      unfold readBeginning
      rw [Proc.bind_of_ok (readHeader_ok hv.ok hv.version [] _ [])]
      simp only [hf2, if_true, List.nil_append]
      exact Proc.bind_of_error (Proc.bind_of_error he)
    refine unpackBytes_error' (o := []) ?_ hov
    unfold unpackFrom unpackFP
    rw [hz, hb]
  · intro m h hr
    have hb : readBeginning E (Z [] (F.header.bytes ++ (S ++ (F.offsets ++ (F.body E ++ F.junk)))) []) =
        (.ok (F.header, m, some h, os), Z (F.header.bytes ++ S ++ F.offsets) (F.body E ++ F.junk) []) := by
      unfold readBeginning
      rw [Proc.bind_of_ok (readHeader_ok hv.ok hv.version [] _ [])]
      simp only [hf2, if_true, List.nil_append]
      rw [Proc.bind_of_ok (a := (m, some h)) (s' := Z (F.header.bytes ++ S) (F.offsets ++ (F.body E ++ F.junk)) [])
        (by rw [Proc.bind_of_ok hr]; rfl), Proc.bind_of_ok h1]
      rfl
    refine unpackBytes_ok ?_
    unfold unpackFrom unpackFP
    rw [hz, hb]
    simp only [hl1]
    obtain ⟨lo, h2⟩ := unpackLoop_records L (h := F.header) hl2 F.chunks hv.chunks_ok (F.header.bytes ++ S ++ F.offsets) F.junk [] [] [] 0 0
    have hn : (compressedFPSource F.header (F.impl E)).nchunks.toNat = F.chunks.length + 0 := by
      show F.header.nchunks.toNat = _
      rw [hv.nchunks]; omega
    have ho : ({ data := [] } : FP) = Z [] [] [] := rfl
    unfold unpack
    rw [hn, ho]
    unfold File.body
    rw [h2]
    simp [unpackLoop, Except.map, File.data]

/-- what unpacking makes of a file whose metadata section is a mixture of an old and a new one of the same shape -/
theorem unpack_mixed (L : E.Laws) (hv : F.Valid E) {s s' : Section μ} (hs : F.sec = some s) (hs' : s'.Valid E)
    (hmax : s'.header.max_meta_size = s.header.max_meta_size) (hsize : (s'.impl E).size = (s.impl E).size) (k : Nat)
    (hkl : k ≤ (s.bytes E).length)
    (hk : 32 ≤ k ∨ s.header.max_meta_size ≤ (F.offsets ++ (F.body E ++ F.junk)).length) :
    (∃ e, unpackBytesFromBytes E (F.header.bytes ++ (((s'.bytes E).take k ++ (s.bytes E).drop k) ++
      (F.offsets ++ (F.body E ++ F.junk)))) = .error e) ∨
    ∃ m, unpackBytesFromBytes E (F.header.bytes ++ (((s'.bytes E).take k ++ (s.bytes E).drop k) ++
      (F.offsets ++ (F.body E ++ F.junk)))) = .ok (F.data, m) := by
  have hvs := hv.sec_ok s hs
  have l1 := Section.bytes_length L hvs
  have l2 := Section.bytes_length L hs'
  rw [hmax, hsize] at l2
  obtain ⟨u1, u2⟩ := unpack_section L hv (by rw [hs]; rfl) ((s'.bytes E).take k ++ (s.bytes E).drop k)
  generalize hSS : (s'.bytes E).take k ++ (s.bytes E).drop k = S at u1 u2
  have hSl : S.length = (s.bytes E).length := by rw [← hSS]; simp; omega
  have hb : (s.header.bytes).length = 32 := s.header.bytes_length
  have hb' : (s'.header.bytes).length = 32 := s'.header.bytes_length
  have hS32 : S.take 32 = s'.header.bytes.take (min k 32) ++ s.header.bytes.drop (min k 32) := by
    have a1 : (s.bytes E).take 32 = s.header.bytes := by unfold Section.bytes; exact List.take_left' hb
    have a2 : (s'.bytes E).take 32 = s'.header.bytes := by unfold Section.bytes; exact List.take_left' hb'
    have hm := slice_mix (a := s'.bytes E) (b := s.bytes E) (by omega) (k := k) (by omega) 0 32
    rw [hSS] at hm
    simp only [slice, List.drop_zero, Nat.sub_zero, a1, a2] at hm
    rw [hm]
    by_cases h32 : k ≤ 32
    · rw [Nat.min_eq_left h32]
    · rw [Nat.min_eq_right (by omega), List.take_of_length_le (by omega), List.take_of_length_le (by omega),
        List.drop_eq_nil_of_le (by omega), List.drop_eq_nil_of_le (by omega)]
  have hS : 32 ≤ S.length := by rw [hSl]; simp [Section.bytes, hb]
  have hslice : slice (F.header.bytes ++ (S ++ (F.offsets ++ (F.body E ++ F.junk)))) 32 64 = S.take 32 := by
    rw [slice, List.drop_left' F.header.bytes_length, List.take_append_of_le_length (by omega)]
  cases hd : MetadataHeader.decode (S.take 32) with
  | error e =>
    left
    have hov : ¬ OvershootsAt (F.header.bytes ++ (S ++ (F.offsets ++ (F.body E ++ F.junk)))) := by
      rintro ⟨_, mh, -, -, -, h4, -⟩
      rw [hslice, hd] at h4
      cases h4
    refine ⟨e, u1 e (Z (F.header.bytes ++ S.take 32) (S.drop 32 ++ (F.offsets ++ (F.body E ++ F.junk)))) ?_ hov⟩
    unfold readMetadata
    have e1 : fpRead METADATA_HEADER_LENGTH (Z F.header.bytes (S ++ (F.offsets ++ (F.body E ++ F.junk)))) =
        (.ok (S.take 32), Z (F.header.bytes ++ S.take 32) (S.drop 32 ++ (F.offsets ++ (F.body E ++ F.junk)))) := by
      conv => lhs; rw [← List.take_append_drop 32 S]
      rw [List.append_assoc]
      exact fpRead_exact _ _ _ _ _ (by simp [METADATA_HEADER_LENGTH]; omega)
    rw [Proc.bind_of_ok e1, Proc.bind_of_error (Proc.ofExcept_apply _ _ |>.trans (by rw [hd]))]
  | ok h =>
    have hd' := hd
    rw [hS32] at hd'
    obtain ⟨m1, m2, m3⟩ := mixed_header (Section.decode_header hvs) (Section.decode_header hs') hmax (Nat.min_le_right _ _) hd'
    obtain ⟨impl, i1, i2⟩ : ∃ impl, checksumLookup E.hashlib h.meta_checksum = .ok impl ∧ impl.size = (s.impl E).size := by
      rcases m2 with m2 | m2 <;> rw [m2]
      · exact ⟨_, (Section.lookup hvs).1, rfl⟩
      · exact ⟨_, (Section.lookup hs').1, hsize⟩
    have f1 := hvs.fits
    have f2 := hs'.fits
    have hfit : h.meta_comp_size ≤ h.max_meta_size + impl.size + (F.offsets ++ (F.body E ++ F.junk)).length := by
      rcases hk with hk | hk
      · have : h = s'.header := by
          rw [Nat.min_eq_right hk, ← hb', List.take_length, hb', ← hb, List.drop_length, List.append_nil, Section.decode_header hs'] at hd'
          exact (Except.ok.inj hd').symm
        rw [this]; omega
      · omega
    rcases readMetadata_place L F.header.bytes S (F.offsets ++ (F.body E ++ F.junk)) [] hd i1
      (by rw [hSl, l1, m1, i2]) hfit with ⟨e, fp, he⟩ | ⟨m, hm⟩
    · refine .inl ⟨e, u1 e fp he ?_⟩
      rintro ⟨_, mh, -, -, -, h4, h5⟩
      rw [hslice, hd] at h4
      cases h4
      simp only [List.length_append] at h5 hfit hSl
      omega
    · exact .inr ⟨m, u2 m h hm⟩

/-! ### C58 -/

/-- C58: when rewriting the metadata is interrupted, even in the middle of a write, no byte outside the metadata section has
changed and the file has the same length. -/
theorem C58_outside (E : Env μ) (L : E.Laws) (F : File μ) (hc : F.Conforming E) (md : Option μ) (x : RewriteArgs)
    (r : Except Err Unit) (fp : FP) (hrun : rewriteMetadata E md x { data := F.bytes E } = (r, fp))
    (d : Bytes) (hcrash : Spec.Crashed (F.bytes E) fp.log d) :
    d.length = (F.bytes E).length ∧ d.take 32 = (F.bytes E).take 32 ∧
    d.drop (32 + (F.secBytes E).length) = (F.bytes E).drop (32 + (F.secBytes E).length) := by
  rcases rewrite_run L hc md x [] _ _ hrun with ⟨e, -, -, hl, -⟩ | ⟨s, s', h1, h2, h3, h4, -, -, -, hl, -⟩
  · rw [hl] at hcrash
    rcases hcrash with rfl | ⟨done, p, bs, todo, t, h1, -⟩
    · exact ⟨rfl, rfl, rfl⟩
    · cases done <;> cases h1
  · have hs : F.secBytes E = s.bytes E := by simp [File.secBytes, h1]
    have hb := F.header.bytes_length
    have e1 : F.bytes E = F.header.bytes ++ (s.bytes E ++ (F.offsets ++ (F.body E ++ F.junk))) := by
      simp [File.bytes, File.front, hs]
    rw [hl, List.nil_append, e1, ← hb] at hcrash
    obtain ⟨k, hk, rfl⟩ := crashed_inside (by rw [secWrites_flatten h2, h4]) hcrash
    clear hcrash
    rw [secWrites_flatten h2, e1, hs]
    refine ⟨by simp; omega, ?_, ?_⟩
    · rw [List.take_left' hb, List.take_left' hb]
    · rw [← List.append_assoc F.header.bytes, ← List.append_assoc F.header.bytes (s.bytes E), List.drop_left' (by simp [hb]; omega),
        List.drop_left' (by simp [hb])]

/-- C58: when rewriting the metadata is interrupted between two writes, unpacking the file raises, or returns the same
data. -/
theorem C58_between (E : Env μ) (L : E.Laws) (F : File μ) (hc : F.Conforming E) (md : Option μ) (x : RewriteArgs)
    (r : Except Err Unit) (fp : FP) (hrun : rewriteMetadata E md x { data := F.bytes E } = (r, fp))
    (d : Bytes) (hstop : Spec.StoppedBetween (F.bytes E) fp.log d) :
    (∃ e, unpackBytesFromBytes E d = .error e) ∨ ∃ m, unpackBytesFromBytes E d = .ok (F.data, m) := by
  have hold : ∃ m, unpackBytesFromBytes E (F.bytes E) = .ok (F.data, m) := ⟨_, unpack_conforming L hc.toValid⟩
  rcases rewrite_run L hc md x [] _ _ hrun with ⟨e, -, -, hl, -⟩ | ⟨s, s', h1, h2, h3, h4, -, -, -, hl, hmax, hsize, -⟩
  · rw [hl] at hstop
    obtain ⟨done, todo, h1, rfl⟩ := hstop
    rw [(List.append_eq_nil_iff.1 h1.symm).1]
    exact .inr hold
  · have hs : F.secBytes E = s.bytes E := by simp [File.secBytes, h1]
    have hb := F.header.bytes_length
    have e1 : F.bytes E = F.header.bytes ++ (s.bytes E ++ (F.offsets ++ (F.body E ++ F.junk))) := by
      simp [File.bytes, File.front, hs]
    have hf := secWrites_flatten h2
    have e2 : ∃ rest, secWrites E s' = s'.header.bytes :: rest := ⟨_, rfl⟩
    obtain ⟨rest, e2⟩ := e2
    rw [hl, List.nil_append, e1, ← hb, e2] at hstop
    rw [e2] at hf
    rcases stopped_inside (by rw [hf, h4]) hstop with rfl | ⟨k, hk1, hk2, rfl⟩
    · rw [← e1]; exact .inr hold
    · rw [hf]
      exact unpack_mixed L hc.toValid h1 h2 hmax hsize k hk2 (.inl (by rw [MetadataHeader.bytes_length] at hk1; exact hk1))

/-- C58: the same for an interruption in the middle of a write, if what follows the metadata section is at least as long as
the space reserved for metadata. -/
theorem C58_torn (E : Env μ) (L : E.Laws) (F : File μ) (hc : F.Conforming E) (md : Option μ) (x : RewriteArgs)
    (r : Except Err Unit) (fp : FP) (hrun : rewriteMetadata E md x { data := F.bytes E } = (r, fp))
    (d : Bytes) (hcrash : Spec.Crashed (F.bytes E) fp.log d)
    (hroom : 2 * (F.secBytes E).length ≤ (F.bytes E).length) :
    (∃ e, unpackBytesFromBytes E d = .error e) ∨ ∃ m, unpackBytesFromBytes E d = .ok (F.data, m) := by
  have hold : ∃ m, unpackBytesFromBytes E (F.bytes E) = .ok (F.data, m) := ⟨_, unpack_conforming L hc.toValid⟩
  rcases rewrite_run L hc md x [] _ _ hrun with ⟨e, -, -, hl, -⟩ | ⟨s, s', h1, h2, h3, h4, -, -, -, hl, hmax, hsize, -⟩
  · rw [hl] at hcrash
    rcases hcrash with rfl | ⟨done, p, bs, todo, t, h1, -⟩
    · exact .inr hold
    · cases done <;> cases h1
  · have hs : F.secBytes E = s.bytes E := by simp [File.secBytes, h1]
    have hb := F.header.bytes_length
    have hsb := Section.bytes_length L (hc.sec_ok s h1)
    have e1 : F.bytes E = F.header.bytes ++ (s.bytes E ++ (F.offsets ++ (F.body E ++ F.junk))) := by
      simp [File.bytes, File.front, hs]
    have hl1 : (F.bytes E).length = 32 + ((s.bytes E).length + (F.offsets ++ (F.body E ++ F.junk)).length) := by
      rw [e1, List.length_append, hb, List.length_append]
    rw [hl, List.nil_append, e1, ← hb] at hcrash
    obtain ⟨k, hk, hd⟩ := crashed_inside (by rw [secWrites_flatten h2, h4]) hcrash
    rw [hd, secWrites_flatten h2]
    rw [hs, hl1] at hroom
    exact unpack_mixed L hc.toValid h1 h2 hmax hsize k hk (.inr (by omega))

/-- C58: the recorded writes are all there is: performing them gives the new contents of the file. -/
theorem C58_writes (E : Env μ) (d : Bytes) (md : Option μ) (x : RewriteArgs) (r : Except Err Unit) (fp : FP)
    (hrun : rewriteMetadata E md x { data := d } = (r, fp)) :
    fp.data = Spec.replay d fp.log ∧ Spec.StoppedBetween d fp.log d ∧ Spec.StoppedBetween d fp.log fp.data := by
  have h := Logged.opened (Logged.rewriteMetadata E md x) d 0
  rw [hrun] at h
  exact ⟨h, ⟨[], fp.log, rfl, rfl⟩, ⟨fp.log, [], by simp, h⟩⟩

/-- A rewrite of eleven writes and what unpacking gives after some of them: after the header the old metadata is still
there, from the body on the digest is wrong until it is written as well. -/
example : (packBytesToBytes Toy.env [1, 2, 3] (.int 2) (some 5) {} { max_app_chunks := .int 2 }
      { max_meta_size := .int 12 }).toOption.map (fun out =>
    let fp := (rewriteMetadata Toy.env (some 6) {} { data := out }).2
    [0, 1, 2, 3, 10, 11].map fun n => (unpackBytesFromBytes Toy.env (Spec.replay out (fp.log.take n))).toOption) =
      some [some ([1, 2, 3], some 5), some ([1, 2, 3], some 5), none, none, none, some ([1, 2, 3], some 6)] := by
  decide +kernel

end Bloscpack
