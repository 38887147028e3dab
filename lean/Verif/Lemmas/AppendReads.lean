import Verif.Lemmas.Append
/-
What `append_fp` does to a conforming file when the reads of the new content deliver something else than announced.
-/
namespace Bloscpack
variable {μ : Type}

section
variable {E : Env μ} {F : File μ} {init : List (Bytes × Bytes)} {p : Bytes × Bytes}

theorem squeezeIn_ok (hc : F.Located E) (hcs : 0 ≤ F.header.chunk_size) (ho : F.header.offsets = true) (hchunks : F.chunks = init ++ [p])
    (D : Bytes) {a : BloscArgs} {new c : Bytes} {n : Nat} (hfit : F.header.last_chunk + n ≤ F.header.chunk_size)
    (hcomp : E.compress (p.2 ++ new) a = .ok c) (l : List (Nat × Bytes)) :
    ∃ fp, squeezeIn E F.header (F.impl E) (headPart E F init).length a p.2 new n
        (Z (headPart E F init ++ (p.1 ++ D)) F.junk l) = (.ok 0, fp) ∧
      fp.data = (grownFile E F init [(c, p.2 ++ new)] (F.header.last_chunk + n) (p.1 ++ (D ++ F.junk))).bytes E ∧
      fp.log = l ++ seqLog (headPart E F init).length (chunkWrites (F.impl E) c) ++
        [(0, (grownFile E F init [(c, p.2 ++ new)] (F.header.last_chunk + n) (p.1 ++ (D ++ F.junk))).header.bytes)] := by
  have hn : F.header.nchunks = init.length + 1 := by rw [hc.nchunks, hchunks]; simp
  have hl0 : -1 ≤ F.header.last_chunk := hc.ok.2.2.2.2.1.1
  have hm0 : 0 ≤ F.header.max_app_chunks := hc.ok.2.2.2.2.2.2.1.1
  generalize hG : grownFile E F init [(c, p.2 ++ new)] (F.header.last_chunk + n) (p.1 ++ (D ++ F.junk)) = G
  have hGh : ({ F.header with last_chunk := F.header.last_chunk + n } : BloscpackHeader) = G.header := by
    rw [← hG]; simp [grownFile]
  have hGok : G.header.OK := by
    rw [← hG]
    exact grownFile_header_ok hc.ok (by omega) hcs (by simp) (by simpa using hm0) (by omega) (by omega)
  obtain ⟨s1, s2⟩ := seekZero_wrote F.header (headRest E F init) (p.1 ++ (D ++ F.junk)) l (chunkWrites (F.impl E) c)
    (headPart E F init) (headPart_eq E F init) G.header
  refine ⟨Z G.header.bytes (headRest E F init ++ ((chunkWrites (F.impl E) c).flatten ++
    (p.1 ++ (D ++ F.junk)).drop (chunkWrites (F.impl E) c).flatten.length))
    (l ++ seqLog (headPart E F init).length (chunkWrites (F.impl E) c) ++ [(0, G.header.bytes)]), ?_, ?_, rfl⟩
  · unfold squeezeIn
    rw [Proc.bind_of_ok (fpSeek_Z _ _ (headPart E F init) (p.1 ++ (D ++ F.junk)) l _ (by simp) rfl),
      Proc.bind_of_ok (Proc.ofExcept_apply _ _ |>.trans (by rw [hcomp])), ← wrote_nil,
      Proc.bind_of_ok (writeCompressedChunk_wrote _ _ _ _ _ _), hGh,
      Proc.bind_of_ok (Proc.ofExcept_apply _ _ |>.trans (by rw [BloscpackHeader.encode_ok hGok])), List.nil_append,
      Proc.bind_of_ok s1, Proc.bind_of_ok s2]
    rfl
  · have hoff : G.offsets = F.offsets := by
      rw [← hG, hc.table ho]
      simp only [grownFile, hchunks, List.map_append, List.map_singleton, List.length_singleton]
      rw [positions_snoc_congr _ _ _ c p.1]
      simp
    have hGi : G.impl E = F.impl E := by rw [← hG]; rfl
    have hGs : G.secBytes E = F.secBytes E := by rw [← hG]; rfl
    have hGc : G.chunks = init ++ [(c, p.2 ++ new)] := by rw [← hG]; rfl
    have hGj : G.junk = (p.1 ++ (D ++ F.junk)).drop (Spec.records (F.impl E).function [c]).length := by rw [← hG]; rfl
    rw [Z_data, File.bytes, File.front, File.body, hoff, hGi, hGs, hGc, hGj, headRest, chunkWrites_flatten]
    simp [records_append]

theorem growBy_ok (hc : F.Located E) (hcs : 0 ≤ F.header.chunk_size) (ho : F.header.offsets = true) (hchunks : F.chunks = init ++ [p])
    (D : Bytes) {a : BloscArgs} {fill : Bytes} {src : Int → Int → Int → List Bytes} (hsrc : ∀ cs lc k, 1 ≤ k → (src cs lc k).length = k.toNat) {n : Nat}
    (hbig : ¬ (n : Int) ≤ F.header.chunk_size - p.2.length) (l : List (Nat × Bytes)) (r : Int) (fp : FP)
    (hrun : growBy E F.header (F.impl E) (Spec.positions (F.impl E).function (F.front E).length (F.chunks.map (·.1)))
      (32 + (F.secBytes E).length : Nat) (headPart E F init).length a p.2 fill src n
      (F.header.chunk_size - p.2.length) (Z (headPart E F init ++ (p.1 ++ D)) F.junk l) = (.ok r, fp)) :
    ∃ (cs lc : Int) (C : List (Bytes × Bytes)),
      calculateNchunks (n - (F.header.chunk_size - p.2.length)) (.int F.header.chunk_size) = .ok (r, cs, lc) ∧
      r ≤ F.header.max_app_chunks ∧ 1 ≤ r ∧ (C.length : Int) = r + 1 ∧ 1 ≤ lc ∧ lc ≤ F.header.chunk_size ∧
      (∀ x ∈ C, E.compress x.2 a = .ok x.1) ∧ C.map (·.2) = (p.2 ++ fill) :: src cs lc r ∧
      fp.data = (grownFile E F init C lc (p.1 ++ (D ++ F.junk))).bytes E ∧
      ∀ o ∈ Spec.positions (F.impl E).function (F.front E).length ((init ++ C).map (·.1)), o < 2 ^ 63 := by
  have hn : F.header.nchunks = init.length + 1 := by rw [hc.nchunks, hchunks]; simp
  have hm0 : 0 ≤ F.header.max_app_chunks := hc.ok.2.2.2.2.2.2.1.1
  have hmaxB : F.header.chunk_size ≤ BLOSC_MAX_BUFFERSIZE := by
    have := hc.ok.2.2.2.1.2
    have : BLOSC_MAX_BUFFERSIZE = 2 ^ 31 - 17 := by decide
    omega
  obtain ⟨-, hi2, -⟩ := File.lookup hc.toPre
  generalize hb : (F.header.chunk_size - p.2.length) = b at hrun hbig ⊢
  unfold growBy at hrun
  cases hcalc : calculateNchunks (n - b) (.int F.header.chunk_size) with
  | error e =>
    rw [hcalc, Proc.bind_of_error (Proc.ofExcept_apply _ _)] at hrun
    cases hrun
  | ok t =>
    obtain ⟨k, cs, lc⟩ := t
    rw [hcalc, Proc.bind_of_ok (Proc.ofExcept_apply _ _)] at hrun
    simp only at hrun
    by_cases hk : k > F.header.max_app_chunks
    · rw [Proc.bind_of_error (Proc.raiseIf_pos hk _ _)] at hrun
      cases hrun
    rw [Proc.bind_of_ok (Proc.raiseIf_neg hk _ _),
      Proc.bind_of_ok (fpSeek_Z _ _ (headPart E F init) (p.1 ++ (D ++ F.junk)) l _ (by simp) rfl)] at hrun
    cases hcomp : E.compress (p.2 ++ fill) a with
    | error e =>
      rw [hcomp, Proc.bind_of_error (Proc.ofExcept_apply _ _)] at hrun
      cases hrun
    | ok c =>
      rw [hcomp, Proc.bind_of_ok (Proc.ofExcept_apply _ _),
        ← wrote_nil (headPart E F init) (p.1 ++ (D ++ F.junk)) l, Proc.bind_of_ok (writeCompressedChunk_wrote _ _ _ _ _ _), List.nil_append] at hrun
      obtain ⟨-, i6, -, i9, -, -, i10⟩ := C02_chunking_covers _ _ _ _ _ hcalc
      obtain ⟨i7, v, hv, i11, -⟩ := i10 (by omega)
      have i8 : lc ≤ F.header.chunk_size := by
        rcases hv with h | ⟨s, h, -⟩
        · cases h; omega
        · cases h
      have hsl := hsrc cs lc k i6
      rw [repeatList_single] at hrun
      generalize hds : src cs lc k = ds at hrun hsl
      -- the loop
      have hloop : (∃ chs : List (Bytes × Bytes), chs.map (·.2) = ds ∧ (∀ p ∈ chs, E.compress p.2 a = .ok p.1) ∧
          withSink F.header (F.impl E) (List.replicate k.toNat (-1)) (appendLoop E a 0 ds)
            (wrote (headPart E F init) (p.1 ++ (D ++ F.junk)) l (chunkWrites (F.impl E) c)) =
          (.ok ((), Spec.positions (F.impl E).function ((headPart E F init).length + (c.length + ((F.impl E).function c).length))
            (chs.map (·.1))),
            wrote (headPart E F init) (p.1 ++ (D ++ F.junk)) l
              (chunkWrites (F.impl E) c ++ chunksWrites (F.impl E) (chs.map (·.1))))) ∨
          ∃ e, (withSink F.header (F.impl E) (List.replicate k.toNat (-1)) (appendLoop E a 0 ds)
            (wrote (headPart E F init) (p.1 ++ (D ++ F.junk)) l (chunkWrites (F.impl E) c))).1 = .error e := by
        unfold withSink
        rw [appendLoop_eq]
        have hw := packLoop_wrote (E := E) a ds
          (mkSink F.header (F.impl E) (wrote (headPart E F init) (p.1 ++ (D ++ F.junk)) l (chunkWrites (F.impl E) c)) 0
            (List.replicate k.toNat (-1))) hi2 rfl [] (List.replicate k.toNat (-1)) rfl (by intro _; simp; omega)
        rcases hw with ⟨chs, w1, w2, w3⟩ | ⟨chs, d, rest, e, w1, w2, w3, w4⟩
        · refine .inl ⟨chs, w1, w2, ?_⟩
          have hlen : (chs.map (·.1)).length = k.toNat := by
            have := congrArg List.length w1
            simp at this ⊢; omega
          have w3' : packLoop E (compressedFPSink E) a 0 ds
              { fp := wrote (headPart E F init) (p.1 ++ (D ++ F.junk)) l (chunkWrites (F.impl E) c), header := F.header,
                impl := F.impl E, offset_storage := List.replicate k.toNat (-1) } = _ := w3
          rw [w3']
          have hst : ∀ s A R l bss cs, s.header.offsets = true → cs.length = k.toNat →
              (afterChunks s A R l bss [] (List.replicate k.toNat (-1)) cs).offset_storage =
                Spec.positions s.impl.function (A.length + bss.flatten.length) cs := by
            intro s A R l bss cs h1 h2
            simp [afterChunks, h1, h2]
          simp only
          rw [hst _ _ _ _ _ _ ho hlen, chunkWrites_flatten, List.length_append]
          rfl
        · refine .inr ⟨e, ?_⟩
          have w4' : packLoop E (compressedFPSink E) a 0 ds
              { fp := wrote (headPart E F init) (p.1 ++ (D ++ F.junk)) l (chunkWrites (F.impl E) c), header := F.header,
                impl := F.impl E, offset_storage := List.replicate k.toNat (-1) } = _ := w4
          rw [w4']
      rcases hloop with hloop | ⟨e, hloop⟩
      case inr => rw [Proc.bind_of_error (Prod.ext hloop rfl)] at hrun; cases hrun
      obtain ⟨chs2, l1, l2, l3⟩ := hloop
      rw [Proc.bind_of_ok l3] at hrun
      simp only at hrun
      have hchs : (chunkWrites (F.impl E) c ++ chunksWrites (F.impl E) (chs2.map (·.1))) =
          chunksWrites (F.impl E) (((c, p.2 ++ fill) :: chs2).map (·.1)) := by
        simp [chunksWrites]
      have hpos : Spec.positions (F.impl E).function (F.front E).length (F.chunks.map (·.1)) ++
          Spec.positions (F.impl E).function ((headPart E F init).length + (c.length + ((F.impl E).function c).length))
            (chs2.map (·.1)) =
          Spec.positions (F.impl E).function (F.front E).length ((init ++ ((c, p.2 ++ fill) :: chs2)).map (·.1)) := by
        have hm : (init ++ ((c, p.2 ++ fill) :: chs2)).map (·.1) =
            (init.map (·.1) ++ [c]) ++ chs2.map (·.1) := by simp
        rw [hm, positions_append _ _ (init.map (·.1) ++ [c]), hchunks, List.map_append, List.map_singleton,
          positions_snoc_congr _ _ _ p.1 c]
        congr 2
        simp [headPart, records_append, Nat.add_assoc]
      have hlen : chs2.length = k.toNat := by
        have := congrArg List.length l1
        simp at this; omega
      rw [hchs, hpos] at hrun
      generalize hC : (c, p.2 ++ fill) :: chs2 = C at hrun
      have hCl : (C.length : Int) = k + 1 := by rw [← hC]; simp; omega
      have hCne : C ≠ [] := by rw [← hC]; simp
      generalize hG : grownFile E F init C lc (p.1 ++ (D ++ F.junk)) = G
      have hGh : ({ F.header with last_chunk := lc, nchunks := F.header.nchunks + k, max_app_chunks := F.header.max_app_chunks - k } : BloscpackHeader) = G.header := by
        rw [← hG]; simp only [grownFile, hCl]
        congr 1 <;> omega
      have hGok : G.header.OK := by
        rw [← hG]
        exact grownFile_header_ok hc.ok (by omega) hcs hCne (by omega) (by omega) (by omega)
      have hgl : (grownFile E F init C lc (p.1 ++ (D ++ F.junk))).offsets.length = offsetsLen F.header :=
        grownFile_offsets_length hn ho hCne (by omega)
      obtain ⟨s1, s2⟩ := seekZero_wrote F.header (headRest E F init) (p.1 ++ (D ++ F.junk)) l
        (chunksWrites (F.impl E) (C.map (·.1))) (headPart E F init) (headPart_eq E F init) G.header
      rw [hGh, Proc.bind_of_ok (Proc.ofExcept_apply _ _ |>.trans (by rw [BloscpackHeader.encode_ok hGok])),
        Proc.bind_of_ok s1, Proc.bind_of_ok s2] at hrun
      generalize hrest : (Spec.records (F.impl E).function (init.map (·.1)) ++ ((chunksWrites (F.impl E) (C.map (·.1))).flatten ++
          (p.1 ++ (D ++ F.junk)).drop (chunksWrites (F.impl E) (C.map (·.1))).flatten.length)) = rest
      have e4 : headRest E F init ++ ((chunksWrites (F.impl E) (C.map (·.1))).flatten ++
          (p.1 ++ (D ++ F.junk)).drop (chunksWrites (F.impl E) (C.map (·.1))).flatten.length) =
          F.secBytes E ++ (F.offsets ++ rest) := by
        rw [← hrest]; simp [headRest]
      rw [e4, Proc.bind_of_ok (fpSeek_Z G.header.bytes _ (G.header.bytes ++ F.secBytes E) (F.offsets ++ rest) _ _ (by simp)
        (by rw [List.length_append, BloscpackHeader.bytes_length]))] at hrun
      by_cases hreach : ∀ o ∈ Spec.positions (F.impl E).function (F.front E).length ((init ++ C).map (·.1)), o < 2 ^ 63
      · have henc : encodeOffsets (Spec.positions (F.impl E).function (F.front E).length ((init ++ C).map (·.1))) =
            .ok (Spec.int64s (Spec.positions (F.impl E).function (F.front E).length ((init ++ C).map (·.1)))) := by
          rw [encodeOffsets_iff]
          refine ⟨?_, rfl⟩
          intro o ho2
          have h1 := (positions_le_records _ _ _ o ho2).1
          have h2 := hreach o ho2
          omega
        generalize hraw : Spec.int64s (Spec.positions (F.impl E).function (F.front E).length ((init ++ C).map (·.1))) = raw at henc
        have hw : writeOffsets (Spec.positions (F.impl E).function (F.front E).length ((init ++ C).map (·.1)))
            (Z (G.header.bytes ++ F.secBytes E) (F.offsets ++ rest) (l ++ seqLog (headPart E F init).length
              (chunksWrites (F.impl E) (C.map (·.1))) ++ [(0, G.header.bytes)])) =
            (.ok (), Z (G.header.bytes ++ F.secBytes E ++ raw) ((F.offsets ++ rest).drop raw.length) (l ++ seqLog (headPart E F init).length
              (chunksWrites (F.impl E) (C.map (·.1))) ++ [(0, G.header.bytes)] ++ [((G.header.bytes ++ F.secBytes E).length, raw)])) := by
          unfold writeOffsets
          rw [Proc.bind_of_ok (Proc.ofExcept_apply _ _ |>.trans (by rw [henc])), fpWrite_Z]
        rw [Proc.bind_of_ok hw] at hrun
        have hr : (Except.ok k, Z (G.header.bytes ++ F.secBytes E ++ raw) ((F.offsets ++ rest).drop raw.length) (l ++ seqLog (headPart E F init).length
              (chunksWrites (F.impl E) (C.map (·.1))) ++ [(0, G.header.bytes)] ++ [((G.header.bytes ++ F.secBytes E).length, raw)])) = (.ok r, fp) := hrun
        simp only [Prod.mk.injEq, Except.ok.injEq] at hr
        obtain ⟨rfl, rfl⟩ := hr
        refine ⟨cs, lc, C, rfl, by omega, i6, hCl, i7, i8, ?_, ?_, ?_, hreach⟩
        · rw [← hC]
          intro x hx
          rcases List.mem_cons.1 hx with rfl | hx
          · exact hcomp
          · exact l2 x hx
        · rw [← hC, List.map_cons, l1, hds]
        · have hrawl : raw.length = 8 * (F.header.nchunks.toNat + k.toNat) := by
            rw [← hraw, int64s_length, positions_length, List.length_map, List.length_append]
            omega
          have hdrop : (F.offsets ++ rest).drop raw.length =
              Spec.int64s (List.replicate (F.header.max_app_chunks - k).toNat (-1)) ++ rest := by
            have hsplit : F.header.max_app_chunks.toNat = k.toNat + (F.header.max_app_chunks - k).toNat := by omega
            rw [hc.table ho, int64s_append, hsplit, ← List.replicate_append_replicate, int64s_append, ← List.append_assoc,
              List.append_assoc]
            apply List.drop_left'
            rw [List.length_append, int64s_length, int64s_length, positions_length, List.length_map, List.length_replicate, hrawl,
              hchunks, List.length_append]
            simp; omega
          have hGo : G.offsets = raw ++ Spec.int64s (List.replicate (F.header.max_app_chunks - k).toNat (-1)) := by
            rw [← hraw, ← hG, ← int64s_append]
            simp only [grownFile]
            rw [show F.header.max_app_chunks - ((C.length : Int) - 1) = F.header.max_app_chunks - k by omega]
          have hGi : G.impl E = F.impl E := by rw [← hG]; rfl
          have hGs : G.secBytes E = F.secBytes E := by rw [← hG]; rfl
          have hGc : G.chunks = init ++ C := by rw [← hG]; rfl
          have hGj : G.junk = (p.1 ++ (D ++ F.junk)).drop (Spec.records (F.impl E).function (C.map (·.1))).length := by
            rw [← hG]; rfl
          rw [hG, Z_data, hdrop, File.bytes, File.front, File.body, hGo, hGi, hGs, hGc, hGj, ← hrest, chunksWrites_flatten]
          simp [records_append]
      · exfalso
        obtain ⟨e, he⟩ := encodeOffsets_fail (os := Spec.positions (F.impl E).function (F.front E).length ((init ++ C).map (·.1)))
          (fun h => hreach (fun o ho2 => by have := (h o ho2).2; omega))
        have hw : writeOffsets (Spec.positions (F.impl E).function (F.front E).length ((init ++ C).map (·.1)))
            (Z (G.header.bytes ++ F.secBytes E) (F.offsets ++ rest) (l ++ seqLog (headPart E F init).length
              (chunksWrites (F.impl E) (C.map (·.1))) ++ [(0, G.header.bytes)])) =
            (.error e, (Z (G.header.bytes ++ F.secBytes E) (F.offsets ++ rest) (l ++ seqLog (headPart E F init).length
              (chunksWrites (F.impl E) (C.map (·.1))) ++ [(0, G.header.bytes)]))) := by
          unfold writeOffsets
          rw [Proc.bind_of_error (Proc.ofExcept_apply _ _ |>.trans (by rw [he]))]
        rw [Proc.bind_of_error hw] at hrun
        cases hrun

end

end Bloscpack
