import Verif.Props.Shared
import Verif.Props.RewriteCrash
/-
C89: unpacking an archive while another process rewrites its metadata.
-/
namespace Bloscpack
variable {μ : Type}

/-! ### lemmas -/

section
variable {v : Nat → Nat → Option UInt8} {b k p : Nat}

/-- reading a section whose header is fine, whatever follows it: an error, or one ends up behind it -/
theorem readMetadata_place_shared {E : Env μ} (L : E.Laws) {s : Section μ} (hv : s.Valid E) (h0 : ShowsAt v k p s.header.bytes)
    (hs : ∀ k i, p ≤ i → i < p + (s.bytes E).length → (v k i).isSome) :
    (∃ e s', readMetadata E (At v b k p) = (.error e, s')) ∨
    ∃ m k', readMetadata E (At v b k p) = (.ok (m, s.header), At v b k' (p + (s.bytes E).length)) := by
  obtain ⟨hl1, hl2, hl3⟩ := Section.lookup hv
  have h1 := hv.size
  have h2 := hv.fits
  have hl := Section.bytes_length L hv
  have h32 := s.header.bytes_length
  unfold readMetadata
  rw [Proc.bind_of_ok (read_shows h0 METADATA_HEADER_LENGTH (by rw [MetadataHeader.bytes_length]; rfl)),
    Proc.bind_of_ok (Proc.ofExcept_apply _ _ |>.trans (by rw [Section.decode_header hv]))]
  obtain ⟨body, -, e1⟩ := read_some (v := v) (b := b) (k := k + 1) (p := p + s.header.bytes.length) s.header.meta_comp_size (by omega)
    (fun i hi hi' => hs _ i (by omega) (by omega))
  rw [Proc.bind_of_ok e1, Proc.bind_of_ok (seekRel_at _ (p + 32 + s.header.max_meta_size.toNat) (by omega))]
  by_cases hn : s.header.meta_checksum ≠ "None"
  · rw [if_pos hn, Proc.bind_of_ok (Proc.ofExcept_apply _ _ |>.trans (by rw [hl1]))]
    obtain ⟨dig, -, e2⟩ := read_some (v := v) (b := b) (k := k + 1 + 1) (p := p + 32 + s.header.max_meta_size.toNat) (s.impl E).size
      (by omega) (fun i hi hi' => hs _ i (by omega) (by omega))
    rw [Proc.bind_of_ok e2]
    by_cases hc : (s.impl E).function body ≠ dig
    · exact .inl ⟨_, _, Proc.bind_of_error (Proc.raiseIf_pos hc _ _)⟩
    · rw [Proc.bind_of_ok (Proc.raiseIf_neg hc _ _)]
      cases hload : loadMetadata E s.header body with
      | error e => exact .inl ⟨_, _, Proc.bind_of_error (Proc.ofExcept_apply _ _)⟩
      | ok m =>
        refine .inr ⟨m, k + 1 + 1 + 1, ?_⟩
        rw [Proc.bind_of_ok (Proc.ofExcept_apply _ _)]
        show (_, At v b _ _) = _
        rw [show p + (s.bytes E).length = p + 32 + s.header.max_meta_size.toNat + ((s.impl E).size : Int).toNat by omega]
  · rw [if_neg hn]
    cases hload : loadMetadata E s.header body with
    | error e => exact .inl ⟨_, _, Proc.bind_of_error (Proc.ofExcept_apply _ _)⟩
    | ok m =>
      refine .inr ⟨m, k + 1 + 1, ?_⟩
      have hz : (s.impl E).size = 0 := by
        rw [Hash.size_zero hl2, hl3]
        exact Decidable.not_not.1 hn
      rw [Proc.bind_of_ok (Proc.ofExcept_apply _ _)]
      show (_, At v b _ _) = _
      rw [show p + (s.bytes E).length = p + 32 + s.header.max_meta_size.toNat by omega]

theorem unpackShared_all {E : Env μ} (L : E.Laws) {F : File μ} (hv : F.Valid E) (h0 : ShowsAt v 0 0 F.header.bytes)
    (h1 : Shows v 32 (F.secBytes E))
    (h2 : ∀ k i, 32 + (F.secBytes E).length ≤ i → i < 32 + (F.secBytes E).length + F.offsets.length → (v k i).isSome)
    (h3 : Shows v (F.front E).length (F.body E)) (b : Nat) :
    unpackShared E { view := v, bound := b } = (.ok F.metadata, F.data) := by
  obtain ⟨k1, p1, lo, h5⟩ := unpackShared_pre L hv.toPre h0 h1 h2 h3 b
  rw [h5, hv.nchunks, Int.toNat_natCast, Nat.sub_self]
  simp [unpackLoop, Proc.pure, Except.map]

/-- unpacking a shared archive whose metadata section has a fine header -/
theorem unpackShared_section {E : Env μ} (L : E.Laws) {F : File μ} (hv : F.Valid E) {s s' : Section μ} (hs : F.sec = some s)
    (hv' : s'.Valid E) (hlen : (s'.bytes E).length = (s.bytes E).length)
    (h0 : ShowsAt v 0 0 F.header.bytes) (h1 : ShowsAt v 1 32 s'.header.bytes)
    (h2 : ∀ k i, i < 32 + (F.secBytes E).length + F.offsets.length → (v k i).isSome)
    (h3 : Shows v (F.front E).length (F.body E)) (b : Nat) :
    (∃ e, unpackShared E { view := v, bound := b } = (.error e, [])) ∨
      ∃ m, unpackShared E { view := v, bound := b } = (.ok m, F.data) := by
  have hn : 0 ≤ F.header.nchunks := by have := hv.nchunks_le; omega
  have hm : 0 ≤ F.header.max_app_chunks := hv.ok.2.2.2.2.2.2.1.1
  have hb : F.secBytes E = s.bytes E := by simp [File.secBytes, hs]
  have hfl : (F.front E).length = 32 + (F.secBytes E).length + offsetsLen F.header := by
    simp [File.front, BloscpackHeader.bytes_length, hv.offsets_len, Nat.add_assoc]
  have hf2 : F.header.metadata = true := by rw [hv.meta_flag, hs]; rfl
  rw [hb, ← hlen, hv.offsets_len] at h2
  have hbeg : (∃ e t, readBeginning E (At v b 0 0) = (.error e, t)) ∨ ∃ m mh os k',
      readBeginning E (At v b 0 0) = (.ok (F.header, m, mh, os), At v b k' (F.front E).length) := by
    unfold readBeginning
    rw [Proc.bind_of_ok (readHeader_shows hv.ok hv.version h0)]
    simp only [hf2, if_true]
    rcases readMetadata_place_shared (b := b) (k := 1) L hv' h1 (fun k i _ hi => h2 k i (by omega)) with ⟨e, t, h⟩ | ⟨m, k1, h⟩
    · exact .inl ⟨e, t, Proc.bind_of_error (Proc.bind_of_error h)⟩
    · right
      obtain ⟨k', os, h4⟩ := readOffsets_some (v := v) (b := b) (k := k1) (p := 32 + (s'.bytes E).length) hn hm hv.offsets_small
        (fun k i _ hi => h2 k i hi)
      refine ⟨m, some s'.header, os, k', ?_⟩
      rw [Proc.bind_of_ok (a := (m, some s'.header)) (s' := At v b k1 (32 + (s'.bytes E).length))
        (by rw [Proc.bind_of_ok h]; rfl), Proc.bind_of_ok h4, hfl, hb, hlen]
      rfl
  rcases hbeg with ⟨e, t, h⟩ | ⟨m, mh, os, k', h⟩
  · left
    refine ⟨e, ?_⟩
    unfold unpackShared unpackFP
    rw [h]
  · right
    refine ⟨m, ?_⟩
    obtain ⟨k1, p1, lo, h5⟩ := unpackShared_begun L hv.toPre h h3
    rw [h5, hv.nchunks, Int.toNat_natCast, Nat.sub_self]
    simp [unpackLoop, Proc.pure, Except.map]

end

/-! ### C89 -/

/-- C89: an archive that is unpacked while another process rewrites its metadata: either unpacking fails before anything comes out, or all of
the data come out, exactly. -/
theorem C89_data (E : Env μ) (L : E.Laws) (F : File μ) (hc : F.Conforming E) (md : Option μ) (x : RewriteArgs)
    (r : Except Err Unit) (fp : FP) (hrun : rewriteMetadata E md x { data := F.bytes E } = (r, fp))
    (view : Nat → Nat → Option UInt8) (hseen : Spec.SeenFrom 1 32 (F.bytes E) fp.log view) (b : Nat) :
    (∃ e, unpackShared E { view := view, bound := b } = (.error e, [])) ∨
      ∃ m, unpackShared E { view := view, bound := b } = (.ok m, F.data) := by
  obtain ⟨⟨done, todo, hlog, hhead⟩, hbytes⟩ := hseen
  have hout : ∀ k i, (i < 32 ∨ 32 + (F.secBytes E).length ≤ i) → view k i = (F.bytes E)[i]? := by
    intro k i hi
    obtain ⟨d', h1, h2⟩ := hbytes k i
    obtain ⟨-, h4, h5⟩ := C58_outside E L F hc md x r fp hrun d' h1
    rw [h2]
    rcases hi with hi | hi
    · rw [← List.getElem?_take_of_lt hi, h4, List.getElem?_take_of_lt hi]
    · have := congrArg (fun l => l[i - (32 + (F.secBytes E).length)]?) h5
      simp only [List.getElem?_drop] at this
      rwa [show 32 + (F.secBytes E).length + (i - (32 + (F.secBytes E).length)) = i by omega] at this
  have hlen : ∀ k i, i < (F.bytes E).length → (view k i).isSome := by
    intro k i hi
    obtain ⟨d', h1, h2⟩ := hbytes k i
    have h3 := (C58_outside E L F hc md x r fp hrun d' h1).1
    rw [h2, List.getElem?_eq_getElem (by omega)]
    rfl
  have hb : F.bytes E = F.header.bytes ++ (F.secBytes E ++ (F.offsets ++ (F.body E ++ F.junk))) := by simp [File.bytes, File.front]
  have h32 := F.header.bytes_length
  have hfl : (F.front E).length = 32 + (F.secBytes E).length + F.offsets.length := by
    simp [File.front, BloscpackHeader.bytes_length, Nat.add_assoc]
  have h0 : ShowsAt view 0 0 F.header.bytes := by
    intro j hj
    rw [Nat.zero_add, hout 0 j (.inl (by omega)), hb, List.getElem?_append_left hj]
  have h2 : ∀ k i, i < 32 + (F.secBytes E).length + F.offsets.length → (view k i).isSome := by
    intro k i hi
    refine hlen k i ?_
    rw [hb]; simp [h32]; omega
  have h3 : Shows view (F.front E).length (F.body E) := by
    intro k j hj
    rw [hout k _ (.inr (by omega))]
    unfold File.bytes
    rw [List.getElem?_append_right (by omega), List.getElem?_append_left (by omega), Nat.add_sub_cancel_left]
  cases hs : F.sec with
  | none =>
    right
    have hsb : F.secBytes E = [] := by simp [File.secBytes, hs]
    have h1 : Shows view 32 (F.secBytes E) := by
      rw [hsb]
      exact fun k j hj => absurd hj (Nat.not_lt_zero j)
    exact ⟨F.metadata, unpackShared_all L hc.toValid h0 h1 (fun k i _ hi => h2 k i hi) h3 b⟩
  | some s =>
    have hsb : F.secBytes E = s.bytes E := by simp [File.secBytes, hs]
    have hsh : 32 ≤ (s.bytes E).length := by simp [Section.bytes, MetadataHeader.bytes_length]
    have hold : (∀ i, 32 ≤ i → i < 64 → view 1 i = (F.bytes E)[i]?) → ShowsAt view 1 32 s.header.bytes := by
      intro h j hj
      have := s.header.bytes_length
      rw [h _ (by omega) (by omega), hb, hsb, List.getElem?_append_right (by omega), List.getElem?_append_left (by omega), Section.bytes,
        List.getElem?_append_left (by omega), h32, Nat.add_sub_cancel_left]
    rcases rewrite_run L hc md x [] _ _ hrun with ⟨e, -, -, hl, -⟩ | ⟨s0, s', g1, g2, g3, g4, -, -, -, hl, -⟩
    · rw [hl] at hlog
      rw [(List.append_eq_nil_iff.1 hlog.symm).1] at hhead
      exact unpackShared_section L hc.toValid hs (hc.sec_ok s hs) rfl h0 (hold hhead) h2 h3 b
    · rw [hs] at g1
      cases g1
      obtain ⟨rest, e2⟩ : ∃ rest, secWrites E s' = s'.header.bytes :: rest := ⟨_, rfl⟩
      have hf := secWrites_flatten g2
      rw [e2] at hf
      have hstop : Spec.StoppedBetween (F.bytes E) fp.log (Spec.replay (F.bytes E) done) := ⟨done, todo, hlog, rfl⟩
      rw [hl, List.nil_append, e2, hb, hsb, ← h32] at hstop
      rcases stopped_inside (by rw [hf, g4]) hstop with h | ⟨k, hk1, hk2, h⟩
      · refine unpackShared_section L hc.toValid hs (hc.sec_ok s hs) rfl h0 (hold ?_) h2 h3 b
        intro i hi hi'
        rw [hhead i hi hi', hb, hsb, h]
      · refine unpackShared_section L hc.toValid hs g2 g4 h0 ?_ h2 h3 b
        intro j hj
        have h7 := s'.header.bytes_length
        rw [hf] at h
        rw [hhead _ (by omega) (by omega), hb, hsb, h, List.getElem?_append_right (by omega), List.getElem?_append_left (by simp; omega),
          List.getElem?_append_left (by simp; omega), List.getElem?_take_of_lt (by omega), Section.bytes,
          List.getElem?_append_left (by omega), h32, Nat.add_sub_cancel_left]

/-! ### examples -/

/-- The rewrite of C58's example, read meanwhile. The header of the section is seen after the first of two numbers of writes, everything else
after the second: after 0 and 0, 0 and 11, 11 and 0, 11 and 11 of eleven writes the metadata are the old or the new ones; after 1 and 2
the digest does not fit. -/
example : (packBytesToBytes Toy.env [1, 2, 3] (.int 2) (some 5) {} { max_app_chunks := .int 2 }
      { max_meta_size := .int 12 }).toOption.map (fun out =>
    let log := (rewriteMetadata Toy.env (some 6) {} ({ data := out } : FP)).2.log
    [(0, 0), (0, 11), (11, 0), (11, 11), (1, 2)].map fun p =>
      let r := unpackShared Toy.env
        { view := fun k i => if k = 1 then (Spec.replay out (log.take p.1))[i]? else (Spec.replay out (log.take p.2))[i]? }
      (r.1.toOption, r.2)) =
    some [(some (some 5), [1, 2, 3]), (some (some 6), [1, 2, 3]), (some (some 5), [1, 2, 3]), (some (some 6), [1, 2, 3]), (none, [])] := by
  decide +kernel

end Bloscpack
