import Verif.Props.AppendReads
import Verif.Props.Raises
import Verif.Props.Codecs
/-
C85 (appending to archives that other programs wrote): the README allows headers that do not say the chunk size or the size of the last
chunk, and the reader looks neither at these sizes nor at the offsets.
-/
namespace Bloscpack
variable {μ : Type}

section
variable {E : Env μ} {F : File μ} {init : List (Bytes × Bytes)} {p : Bytes × Bytes}

theorem read_at_start (new : Bytes) (n : Nat) : (({ data := new } : FP).read n).1 = new.take n := by rw [read_new]

theorem fp_items (new : Bytes) (b : Nat) {cs lc k v : Int} (hb : b < new.length)
    (hc : calculateNchunks ((new.length : Int) - b) (.int v) = .ok (k, cs, lc)) :
    ∃ ini tl, (plainFPSource (({ data := new } : FP).read b).2 cs lc k).items = ini ++ [tl] ∧ (tl.length : Int) = lc ∧
      (ini ++ [tl]).flatten = new.drop b := by
  rw [read_new]
  have hl : ((new.length : Int) - b) = (new.drop b).length := by simp; omega
  rw [hl] at hc
  obtain ⟨ini, tl, h1, -, -, h4, h5, -⟩ := append_items (by intro h; have := congrArg List.length h; simp at this; omega) hc (new.take b) []
  exact ⟨ini, tl, by rw [h1], h4, h5⟩

/-- files that can be appended to without harm: right offsets, and sizes in the header that are not misleading. The chunks may have
different lengths, and the size of the last one may be unknown, -1. -/
structure Appendable (E : Env μ) (F : File μ) : Prop extends F.Located E where
  noNull : F.NoNull
  fits : ∃ init p, F.chunks = init ++ [p] ∧ (p.2.length : Int) ≤ F.header.chunk_size ∧ F.header.last_chunk ≤ p.2.length

/-- what appending does to such files, whatever there is in place of the digest of the last chunk -/
theorem foreign_append_digest (L : E.Laws) (hF : F.Located E) (hnn : F.NoNull) (hch : F.chunks = init ++ [p])
    (hcs : (p.2.length : Int) ≤ F.header.chunk_size) (hlc : F.header.last_chunk ≤ p.2.length) (D : Bytes)
    (hD : (D ++ F.junk).take (F.impl E).size = D) (ho : F.header.offsets = true) (new : Bytes) (args : AppendArgs) (fp : FP)
    (h : appendFile E (headPart E F init ++ (p.1 ++ (D ++ F.junk))) new args = (.ok (), fp)) :
    ∃ (G : File μ) (ini : List (Bytes × Bytes)) (q : Bytes × Bytes),
      fp.data = G.bytes E ∧ G.Located E ∧ G.NoNull ∧ G.data = F.data ++ new ∧ G.metadata = F.metadata ∧ G.chunks = ini ++ [q] ∧
      (q.2.length : Int) ≤ G.header.chunk_size ∧ G.header.last_chunk ≤ q.2.length ∧
      ((F.header.last_chunk = p.2.length ∨ F.header.chunk_size < p.2.length + new.length) → G.header.last_chunk = q.2.length) := by
  have hsrc : ∀ b cs lc k, 1 ≤ k → (plainFPSource (({ data := new } : FP).read b).2 cs lc k).items.length = k.toNat := by
    intro b cs lc k hk
    show (readMany _ _).1.length = _
    rw [readMany_length, List.length_append, List.length_replicate, List.length_singleton]
    omega
  unfold appendFile at h
  cases hr : appendFp E { data := new } new.length args { data := headPart E F init ++ (p.1 ++ (D ++ F.junk)) } with
  | mk r fp' =>
  rw [hr] at h
  cases r with
  | error e => cases h
  | ok k =>
  replace h : (if new.length = 0 then (.error .zeroDivisionError, fp') else (.ok (), fp') : Except Err Unit × FP) = (.ok (), fp) := h
  by_cases h0 : new.length = 0
  · rw [if_pos h0] at h; cases h
  rw [if_neg h0] at h
  cases h
  obtain ⟨pieces, last, C, tail, hp, -, g4, g2, g5, g6, g7, g8, g9, g10⟩ :=
    appends_what_was_read_digest E L F hF hnn (by omega) init p hch D hD hlc (fun n => (({ data := new } : FP).read n).1)
      (fun b cs lc k => (plainFPSource (({ data := new } : FP).read b).2 cs lc k).items) hsrc new.length args k fp ho hr
  have hroom : F.header.chunk_size - p.2.length = ((F.header.chunk_size - p.2.length).toNat : Int) := by omega
  -- what was read is the new content, and the length of the last piece
  have hpieces : ∃ x xs, pieces = x :: xs ∧ x ++ xs.flatten = new ∧
      (∀ ini tl, xs = ini ++ [tl] → (tl.length : Int) = last) ∧ (xs = [] → last = F.header.last_chunk + new.length) := by
    rcases hp with ⟨-, -, rfl, rfl⟩ | ⟨h1, h2, cs, h3, rfl⟩
    · refine ⟨_, _, rfl, by rw [read_at_start]; simp, ?_, fun _ => rfl⟩
      intro ini tl hx
      exact absurd (congrArg List.length hx) (by simp)
    · rw [hroom] at h1 h3
      generalize (F.header.chunk_size - p.2.length).toNat = b at *
      obtain ⟨ini, tl, i1, i2, i3⟩ := fp_items new b (by omega) h3
      refine ⟨_, _, rfl, ?_, ?_, ?_⟩
      · rw [hroom, i1, i3, read_at_start, List.take_append_drop]
      · intro ini' tl' hx
        rw [hroom, i1] at hx
        have := (List.append_inj' hx rfl).2
        simp only [List.cons.injEq, and_true] at this
        rw [← this]; exact i2
      · intro hx
        rw [hroom, i1] at hx
        exact absurd hx (by simp)
  obtain ⟨x, xs, rfl, hx, hlast, hone⟩ := hpieces
  have g8' : C.map (·.2) = (p.2 ++ x) :: xs := g8
  have hCne : C ≠ [] := by intro hC; rw [hC] at g8'; cases g8'
  obtain ⟨ini, q, hq⟩ : ∃ ini q, C = ini ++ [q] := ⟨C.dropLast, C.getLast hCne, (List.dropLast_concat_getLast hCne).symm⟩
  have hq2 : (q.2 = p.2 ++ new ∧ (p.2.length : Int) + new.length ≤ F.header.chunk_size ∧ last = F.header.last_chunk + new.length) ∨
      ((q.2.length : Int) = last) := by
    rw [hq, List.map_append] at g8'
    rcases List.eq_nil_or_concat xs with hxs | ⟨ys, y, hxs⟩
    · subst hxs
      have hle := congrArg List.length g8'
      simp at hle
      subst hle
      simp at g8'
      have hl := hone rfl
      have hx' : x = new := by simpa using hx
      rcases hp with ⟨h1, -, -, -⟩ | ⟨h1, hk1, cs, h3, hnil⟩
      · left; rw [g8', hx']; exact ⟨rfl, by omega, hl⟩
      · rw [List.cons.injEq] at hnil
        have := congrArg List.length hnil.2
        rw [hsrc _ _ _ _ hk1] at this
        simp at this; omega
    · rw [List.concat_eq_append] at hxs
      rw [hxs, ← List.cons_append] at g8'
      have h2 := (List.append_inj' g8' rfl).2
      simp at h2
      right
      rw [h2]
      exact hlast _ _ hxs
  refine ⟨_, init ++ ini, q, g9, g10, hnn, ?_, rfl, ?_, ?_, ?_, ?_⟩
  · show ((init ++ C).map (·.2)).flatten = (F.chunks.map (·.2)).flatten ++ _
    rw [hch, List.map_append, g8', List.map_append, List.flatten_append, List.flatten_append, ← hx]
    simp
  · show init ++ C = _
    rw [hq, List.append_assoc]
  · show _ ≤ F.header.chunk_size
    rcases hq2 with ⟨h1, h2, -⟩ | h1
    · rw [h1, List.length_append]; omega
    · omega
  · show last ≤ _
    rcases hq2 with ⟨h1, h2, h3⟩ | h1
    · rw [h1, h3, List.length_append]; omega
    · omega
  · intro hk
    show last = _
    rcases hq2 with ⟨h1, h2, h3⟩ | h1
    · rw [h1, h3, List.length_append]; omega
    · exact h1.symm

/-- a successful append says that there are offsets -/
theorem offsets_of_appended (L : E.Laws) (hF : F.Located E) {new : Bytes} {args : AppendArgs} {fp : FP}
    (h : appendFile E (F.bytes E) new args = (.ok (), fp)) : F.header.offsets = true := by
  cases ho : F.header.offsets with
  | true => rfl
  | false =>
    have := append_no_offsets L hF.toPre ho { data := new } new.length args []
    unfold appendFile at h
    rw [this] at h
    cases h

/-- what appending does to such files -/
theorem foreign_append (L : E.Laws) (hF : F.Located E) (hnn : F.NoNull) (hch : F.chunks = init ++ [p])
    (hcs : (p.2.length : Int) ≤ F.header.chunk_size) (hlc : F.header.last_chunk ≤ p.2.length) (new : Bytes) (args : AppendArgs) (fp : FP)
    (h : appendFile E (F.bytes E) new args = (.ok (), fp)) :
    ∃ (G : File μ) (ini : List (Bytes × Bytes)) (q : Bytes × Bytes),
      fp.data = G.bytes E ∧ G.Located E ∧ G.NoNull ∧ G.data = F.data ++ new ∧ G.metadata = F.metadata ∧ G.chunks = ini ++ [q] ∧
      (q.2.length : Int) ≤ G.header.chunk_size ∧ G.header.last_chunk ≤ q.2.length ∧
      ((F.header.last_chunk = p.2.length ∨ F.header.chunk_size < p.2.length + new.length) → G.header.last_chunk = q.2.length) := by
  have hb : F.bytes E = headPart E F init ++ (p.1 ++ ((F.impl E).function p.1 ++ F.junk)) := by
    rw [File.bytes, File.body, hch]
    simp [headPart, records_append, File.front, Spec.records]
  have hD : ((F.impl E).function p.1).length = (F.impl E).size := Hash.size_eq L (File.lookup hF.toPre).2.1 _
  have ho := offsets_of_appended L hF h
  rw [hb] at h
  exact foreign_append_digest L hF hnn hch hcs hlc _ (take_digest hD _) ho new args fp h

/-- C85: appending to a file whose offsets are right and whose header names a chunk size not smaller than the last chunk: whatever the
lengths of the other chunks are, and if the header does not claim the last chunk to be longer than it is (it may say that its size is
unknown), a successful append adds the new data, and nothing else changes for the reader. If the size of the last chunk was known, or
the append fills it up, the header then says the size of the (new) last chunk. -/
theorem C85_appends_partial (L : E.Laws) (hF : F.Located E) (hnn : F.NoNull) (hch : F.chunks = init ++ [p])
    (hcs : (p.2.length : Int) ≤ F.header.chunk_size) (hlc : F.header.last_chunk ≤ p.2.length) (new : Bytes) (args : AppendArgs) (fp : FP)
    (h : appendFile E (F.bytes E) new args = (.ok (), fp)) :
    unpackBytesFromBytes E fp.data = .ok (F.data ++ new, F.metadata) ∧
    ((F.header.last_chunk = p.2.length ∨ F.header.chunk_size < p.2.length + new.length) →
      ∃ (G : File μ) (ini : List (Bytes × Bytes)) (q : Bytes × Bytes),
        fp.data = G.bytes E ∧ G.Valid E ∧ G.chunks = ini ++ [q] ∧ G.header.last_chunk = q.2.length) := by
  obtain ⟨G, ini, q, h1, h2, -, h4, h5, h6, -, -, h9⟩ := foreign_append L hF hnn hch hcs hlc new args fp h
  refine ⟨by rw [h1, unpackBytes_ok (unpackFrom_file L h2.toValid), h4, h5], fun hk => ⟨G, ini, q, h1, h2.toValid, h6, h9 hk⟩⟩

/-- successful appends, one after the other -/
inductive Appended (E : Env μ) : Bytes → List Bytes → Bytes → Prop where
  | nil (d) : Appended E d [] d
  | cons {d d' new rest fp} (args : AppendArgs) : appendFile E d new args = (.ok (), fp) → Appended E fp.data rest d' → Appended E d (new :: rest) d'

/-- C85: under the same conditions any number of successful appends adds up. -/
theorem C85_history_partial (L : E.Laws) {d d' : Bytes} {news : List Bytes} (h : Appended E d news d') (F : File μ) (hF : Appendable E F)
    (hd : d = F.bytes E) : unpackBytesFromBytes E d' = .ok (F.data ++ news.flatten, F.metadata) := by
  induction h generalizing F with
  | nil d => rw [hd, unpackBytes_ok (unpackFrom_file L hF.toValid)]; simp
  | @cons d d' new rest fp args h1 h2 ih =>
    obtain ⟨init, p, g1, g2, g3⟩ := hF.fits
    obtain ⟨G, ini, q, k1, k2, k3, k4, k5, k6, k7, k8, -⟩ := foreign_append L hF.toLocated hF.noNull g1 g2 g3 new args fp (hd ▸ h1)
    rw [ih G ⟨k2, k3, _, _, k6, k7, k8⟩ k1, k4, k5]
    simp

/-- C85: if the header does not say the chunk size, appending always raises `ValueError` and does not touch the file. -/
theorem C85_unknown_chunk_size (L : E.Laws) (hF : F.Located E) (hnn : F.NoNull) (ho : F.header.offsets = true) (hne : F.chunks ≠ [])
    (hcs : F.header.chunk_size = -1) (new : Bytes) (args : AppendArgs) :
    ∃ fp, appendFile E (F.bytes E) new args = (.error .valueError, fp) ∧ fp.data = F.bytes E := by
  obtain ⟨init, p, hch⟩ : ∃ ini q, F.chunks = ini ++ [q] := ⟨_, _, (List.dropLast_concat_getLast hne).symm⟩
  have hz : ({ data := F.bytes E } : FP) = Z [] (headPart E F init ++ (p.1 ++ ((F.impl E).function p.1 ++ F.junk))) [] := by
    rw [File.bytes, File.body, hch]
    simp [headPart, records_append, File.front, Z, Spec.records]
  have hD : ((F.impl E).function p.1).length = (F.impl E).size := Hash.size_eq L (File.lookup hF.toPre).2.1 _
  have hst := appendFrom_start_at L hF ho (offsetsPos_ok L hF.toPre hnn) hch _ (take_digest hD _) (fun n => (({ data := new } : FP).read n).1)
    (fun b cs lc k => (plainFPSource (({ data := new } : FP).read b).2 cs lc k).items) new.length args []
  rw [← hz, if_neg (by omega)] at hst
  have hcalc : calculateNchunks (new.length - (F.header.chunk_size - p.2.length)) (.int F.header.chunk_size) = .error .valueError := by
    rw [hcs]
    exact ((C03_chunking_rejected _ _).2.2.2.2 (by omega) _ (.inl rfl)).1 (by omega)
  unfold growBy at hst
  rw [hcalc, Proc.bind_of_error (Proc.ofExcept_apply _ _)] at hst
  refine ⟨Z (headPart E F init ++ (p.1 ++ (F.impl E).function p.1)) F.junk [], ?_, ?_⟩
  · unfold appendFile
    have : appendFp E { data := new } new.length args { data := F.bytes E } = _ := hst
    rw [this]
  · have := congrArg FP.data hz
    rw [show ({ data := F.bytes E } : FP).data = F.bytes E from rfl] at this
    rw [this]
    simp [Z]

/-- C85 is violated: if the header does not say the size of the last chunk, an append that fits into it leaves a header that says a size,
and a wrong one: one less than what was appended. -/
theorem C85_unknown_last_chunk_violated (L : E.Laws) (hF : F.Located E) (hnn : F.NoNull) (ho : F.header.offsets = true)
    (hch : F.chunks = init ++ [p]) (hlc : F.header.last_chunk = -1) (new : Bytes) (hne : new ≠ [])
    (hfit : (p.2.length : Int) + new.length ≤ F.header.chunk_size) (args : AppendArgs) (c : Bytes)
    (hcomp : E.compress (p.2 ++ new) (args.filled F.header) = .ok c) :
    ∃ (fp : FP) (G : File μ), appendFile E (F.bytes E) new args = (.ok (), fp) ∧ fp.data = G.bytes E ∧ G.Valid E ∧
      G.chunks = init ++ [(c, p.2 ++ new)] ∧ G.header.last_chunk = new.length - 1 ∧ G.header.last_chunk ≠ (p.2 ++ new).length := by
  have hz : ({ data := F.bytes E } : FP) = Z [] (headPart E F init ++ (p.1 ++ ((F.impl E).function p.1 ++ F.junk))) [] := by
    rw [File.bytes, File.body, hch]
    simp [headPart, records_append, File.front, Z, Spec.records]
  have hD : ((F.impl E).function p.1).length = (F.impl E).size := Hash.size_eq L (File.lookup hF.toPre).2.1 _
  have hst := appendFrom_start_at L hF ho (offsetsPos_ok L hF.toPre hnn) hch _ (take_digest hD _) (fun n => (({ data := new } : FP).read n).1)
    (fun b cs lc k => (plainFPSource (({ data := new } : FP).read b).2 cs lc k).items) new.length args []
  rw [← hz, if_pos (by omega), read_at_start, List.take_length] at hst
  obtain ⟨fp, h1, h2, -⟩ := squeezeIn_ok (n := new.length) hF (by omega) ho hch ((F.impl E).function p.1) (by omega) hcomp []
  rw [h1] at hst
  have hm : 0 ≤ F.header.max_app_chunks := hF.ok.2.2.2.2.2.2.1.1
  have hpos : 0 < new.length := List.length_pos_iff.2 hne
  refine ⟨fp, _, ?_, h2, grownFile_valid L hF ho hch (by omega) (by simp) (by simpa using hm) (by omega) (by omega) (a := args.filled F.header)
    (by simpa using hcomp), rfl, ?_, ?_⟩
  · unfold appendFile
    have : appendFp E { data := new } new.length args { data := F.bytes E } = _ := hst
    rw [this]
    exact if_neg (by omega)
  · show F.header.last_chunk + (new.length : Int) = _
    omega
  · show F.header.last_chunk + (new.length : Int) ≠ _
    rw [List.length_append]
    omega

/-- filling up a chunk, whatever chunk it is -/
theorem squeeze_run {h : BloscpackHeader} {impl : Hash} {A B c c' D R d new : Bytes} {a : BloscArgs} {n : Int} (hA : A = h.bytes ++ B)
    (hcomp : E.compress (d ++ new) a = .ok c')
    (henc : ({ h with last_chunk := h.last_chunk + n } : BloscpackHeader).encode =
      .ok ({ h with last_chunk := h.last_chunk + n } : BloscpackHeader).bytes) :
    ∃ fp, squeezeIn E h impl A.length a d new n (Z (A ++ (c ++ D)) R []) = (.ok 0, fp) ∧
      fp.data = ({ h with last_chunk := h.last_chunk + n } : BloscpackHeader).bytes ++
        (B ++ ((chunkWrites impl c').flatten ++ (c ++ (D ++ R)).drop (chunkWrites impl c').flatten.length)) := by
  obtain ⟨s1, s2⟩ := seekZero_wrote h B (c ++ (D ++ R)) [] (chunkWrites impl c') A hA { h with last_chunk := h.last_chunk + n }
  refine ⟨Z _ _ ([] ++ seqLog A.length (chunkWrites impl c') ++ [(0, ({ h with last_chunk := h.last_chunk + n } : BloscpackHeader).bytes)]), ?_,
    Z_data _ _ _ _⟩
  unfold squeezeIn
  rw [Proc.bind_of_ok (fpSeek_Z _ _ A (c ++ (D ++ R)) [] _ (by simp) rfl),
    Proc.bind_of_ok (Proc.ofExcept_apply _ _ |>.trans (by rw [hcomp])), ← wrote_nil,
    Proc.bind_of_ok (writeCompressedChunk_wrote _ _ _ _ _ _),
    Proc.bind_of_ok (Proc.ofExcept_apply _ _ |>.trans (by rw [henc])), List.nil_append,
    Proc.bind_of_ok s1, Proc.bind_of_ok s2]
  rfl

/-- bytes of a header that is refused are not read as another header -/
theorem BloscpackHeader.decode_bytes_not {h : BloscpackHeader} (hv : 0 ≤ h.format_version ∧ h.format_version ≤ 255)
    (hc : h.checksum ∈ Spec.checksumNames) (ht : 0 ≤ h.typesize ∧ h.typesize ≤ 255)
    (hcs : -2 ^ 31 ≤ h.chunk_size ∧ h.chunk_size ≤ 2 ^ 31 - 1) (hlc : -2 ^ 31 ≤ h.last_chunk ∧ h.last_chunk ≤ 2 ^ 31 - 1)
    (hn : -2 ^ 63 ≤ h.nchunks ∧ h.nchunks ≤ 2 ^ 63 - 1)
    (hm : -2 ^ 63 ≤ h.max_app_chunks ∧ h.max_app_chunks ≤ 2 ^ 63 - 1) (hh : ¬ h.OK) : ∃ e, BloscpackHeader.decode h.bytes = .error e := by
  cases hd : BloscpackHeader.decode h.bytes with
  | error e => exact ⟨e, rfl⟩
  | ok h2 =>
    exfalso
    have hlen := h.bytes_length
    obtain ⟨a1, a2, a3, a4, ea⟩ := exists_leBytes_four h.chunk_size
    obtain ⟨b1, b2, b3, b4, eb⟩ := exists_leBytes_four h.last_chunk
    obtain ⟨c1, c2, c3, c4, c5, c6, c7, c8, ec⟩ := exists_leBytes_eight h.nchunks
    obtain ⟨d1, d2, d3, d4, d5, d6, d7, d8, ed⟩ := exists_leBytes_eight h.max_app_chunks
    have hb : h.bytes = [0x62, 0x6c, 0x70, 0x6b, UInt8.ofNat h.format_version.toNat, Spec.optionsByte h.offsets h.metadata,
        UInt8.ofNat (Spec.checksumNames.idxOf h.checksum), UInt8.ofNat h.typesize.toNat, a1, a2, a3, a4, b1, b2, b3, b4,
        c1, c2, c3, c4, c5, c6, c7, c8, d1, d2, d3, d4, d5, d6, d7, d8] := by
      unfold BloscpackHeader.bytes Spec.headerBytes
      rw [leBytes_one hv.1 hv.2, leBytes_one ht.1 ht.2, ea, eb, ec, ed]
      rfl
    rw [hb] at hlen hd
    rw [BloscpackHeader.decode_of_parts hlen rfl rfl rfl rfl rfl ((decodeOptions_iff _ _ _).2 rfl)
      (nameAt_idxOf (l := Spec.checksumNames) hc (by decide))
      (decodeInt32_iff.2 ⟨hcs.1, hcs.2, ea.symm⟩)
      (decodeInt32_iff.2 ⟨hlc.1, hlc.2, eb.symm⟩)
      (decodeInt64_iff.2 ⟨hn.1, hn.2, ec.symm⟩)
      (decodeInt64_iff.2 ⟨hm.1, hm.2, ed.symm⟩),
      decodeUInt8_of hv.1 hv.2, decodeUInt8_of ht.1 ht.2] at hd
    exact hh ((BloscpackHeader.new_iff _ _).1 hd).1

/-- C85 is violated: if the header claims the last chunk to be longer than it is, a successful append can leave a file that can no longer
be unpacked: the size in the header grows beyond the chunk size, which the reader refuses. It unpacked before. -/
theorem C85_long_last_chunk_violated (L : E.Laws) (hF : F.Located E) (hnn : F.NoNull) (ho : F.header.offsets = true)
    (hch : F.chunks = init ++ [p]) (new : Bytes) (hlc : F.header.chunk_size < F.header.last_chunk + new.length)
    (hmax : F.header.last_chunk + new.length < 2 ^ 31)
    (hfit : (p.2.length : Int) + new.length ≤ F.header.chunk_size) (args : AppendArgs) (c : Bytes)
    (hcomp : E.compress (p.2 ++ new) (args.filled F.header) = .ok c) :
    unpackBytesFromBytes E (F.bytes E) = .ok (F.data, F.metadata) ∧
    ∃ (fp : FP) (e : Err), appendFile E (F.bytes E) new args = (.ok (), fp) ∧ unpackBytesFromBytes E fp.data = .error e := by
  refine ⟨unpackBytes_ok (unpackFrom_file L hF.toValid), ?_⟩
  have hz : ({ data := F.bytes E } : FP) = Z [] (headPart E F init ++ (p.1 ++ ((F.impl E).function p.1 ++ F.junk))) [] := by
    rw [File.bytes, File.body, hch]
    simp [headPart, records_append, File.front, Z, Spec.records]
  have hD : ((F.impl E).function p.1).length = (F.impl E).size := Hash.size_eq L (File.lookup hF.toPre).2.1 _
  have hst := appendFrom_start_at L hF ho (offsetsPos_ok L hF.toPre hnn) hch _ (take_digest hD _) (fun n => (({ data := new } : FP).read n).1)
    (fun b cs lc k => (plainFPSource (({ data := new } : FP).read b).2 cs lc k).items) new.length args []
  rw [← hz, if_pos (by omega), read_at_start, List.take_length] at hst
  obtain ⟨o1, o2, o3, o4, o5, o6, o7, o8, o9, o10⟩ := hF.ok
  have hn0 : 0 < new.length := by
    have := o10 (by omega)
    omega
  obtain ⟨fp, h1, h2⟩ := squeeze_run (E := E) (impl := F.impl E) (c := p.1) (D := (F.impl E).function p.1) (R := F.junk) (n := new.length)
    (headPart_eq E F init) hcomp (BloscpackHeader.encode_of _ o1 o2 o3 (by simp only; omega) (by simp only; omega) (by simp only; omega) (by simp only; omega))
  rw [h1] at hst
  obtain ⟨e, he⟩ := BloscpackHeader.decode_bytes_not (h := { F.header with last_chunk := F.header.last_chunk + new.length }) o1 o2 o3
    (by simp only; omega) (by simp only; omega) (by simp only; omega) (by simp only; omega)
    (fun h => by
      have := h.2.2.2.2.2.2.2.2.2
      simp only at this
      have := this (by omega) (by omega)
      omega)
  refine ⟨fp, e, ?_, ?_⟩
  · unfold appendFile
    have : appendFp E { data := new } new.length args { data := F.bytes E } = _ := hst
    rw [this]
    exact if_neg (by omega)
  · rw [h2]
    refine unpack_header_error E _ e ?_
    rw [List.take_append_of_le_length (by rw [BloscpackHeader.bytes_length]; exact Nat.le_refl _),
      List.take_of_length_le (by rw [BloscpackHeader.bytes_length]; exact Nat.le_refl _)]
    exact he

/-- an append that fails leaves such a file as it was, whatever there is in place of the digest of the last chunk -/
theorem foreign_failed (L : E.Laws) (hF : F.Located E) (hnn : F.NoNull) (hch : F.chunks = init ++ [p])
    (hcs : (p.2.length : Int) ≤ F.header.chunk_size) (hlc : F.header.last_chunk ≤ p.2.length) (D : Bytes)
    (hD : (D ++ F.junk).take (F.impl E).size = D) (ho : F.header.offsets = true) (new : Bytes) (hne : new ≠ []) (args : AppendArgs)
    (e : Err) (fp : FP) (h : appendFile E (headPart E F init ++ (p.1 ++ (D ++ F.junk))) new args = (.error e, fp))
    (hsize : fp.data.length < 2 ^ 63) : fp.data = headPart E F init ++ (p.1 ++ (D ++ F.junk)) ∧ fp.log = [] := by
  have hpos : 0 < new.length := List.length_pos_iff.2 hne
  have hrun : appendFp E { data := new } new.length args (Z [] (headPart E F init ++ (p.1 ++ (D ++ F.junk))) []) = (.error e, fp) := by
    generalize hd : headPart E F init ++ (p.1 ++ (D ++ F.junk)) = d at h ⊢
    have hz : ({ data := d } : FP) = Z [] d [] := rfl
    unfold appendFile at h
    rw [← hz]
    generalize appendFp E { data := new } new.length args { data := d } = q at h ⊢
    obtain ⟨r, fp'⟩ := q
    cases r with
    | error e' => cases h; rfl
    | ok k =>
      replace h : (if new.length = 0 then (.error .zeroDivisionError, fp') else (.ok (), fp') : Except Err Unit × FP) = (.error e, fp) := h
      rw [if_neg (by omega)] at h
      cases h
  have hst := appendFrom_start_at L hF ho (offsetsPos_ok L hF.toPre hnn) hch _ hD (fun n => (({ data := new } : FP).read n).1)
    (fun b cs lc k => (plainFPSource (({ data := new } : FP).read b).2 cs lc k).items) new.length args []
  have hst' : appendFp E { data := new } new.length args (Z [] (headPart E F init ++ (p.1 ++ (D ++ F.junk))) []) = _ := hst
  rw [hrun] at hst'
  split at hst'
  · rename_i hfit
    rw [read_at_start, List.take_length] at hst'
    cases hcomp : E.compress (p.2 ++ new) (args.filled F.header) with
    | error e' =>
      unfold squeezeIn at hst'
      rw [Proc.bind_of_ok (fpSeek_Z _ _ (headPart E F init) (p.1 ++ (D ++ F.junk)) [] _ (by simp) rfl),
        Proc.bind_of_error (Proc.ofExcept_apply _ _ |>.trans (by rw [hcomp]))] at hst'
      cases hst'
      exact ⟨Z_data _ _ _ _, rfl⟩
    | ok c =>
      obtain ⟨fp', h1, -⟩ := squeezeIn_ok (n := new.length) hF (by omega) ho hch D (by omega) hcomp []
      rw [h1] at hst'
      cases hst'
  · rename_i hbig
    rcases appendGrow_run L hF hcs ho hch D hbig [] _ fp hst'.symm with
      ⟨e', -, g1, g2, -⟩ | ⟨k, cs, lc, chs, q, -, -, -, -, -, -, -, -, -, -, ⟨-, g, -⟩ | ⟨-, e', -, g, -⟩⟩
    · exact ⟨g1, g2⟩
    · cases g
    · omega

/-- C85: under the same conditions an append that fails leaves the file as it was (unless it grew beyond what offsets can reach). -/
theorem C85_failed_untouched_partial (L : E.Laws) (hF : F.Located E) (hnn : F.NoNull) (hch : F.chunks = init ++ [p])
    (hcs : (p.2.length : Int) ≤ F.header.chunk_size) (hlc : F.header.last_chunk ≤ p.2.length) (new : Bytes) (hne : new ≠ []) (args : AppendArgs)
    (e : Err) (fp : FP) (h : appendFile E (F.bytes E) new args = (.error e, fp)) (hsize : fp.data.length < 2 ^ 63) :
    fp.data = F.bytes E ∧ fp.log = [] := by
  have hpos : 0 < new.length := List.length_pos_iff.2 hne
  have hz : ({ data := F.bytes E } : FP) = Z [] (headPart E F init ++ (p.1 ++ ((F.impl E).function p.1 ++ F.junk))) [] := by
    rw [File.bytes, File.body, hch]
    simp [headPart, records_append, File.front, Z, Spec.records]
  have hzd : headPart E F init ++ (p.1 ++ ((F.impl E).function p.1 ++ F.junk)) = F.bytes E := (congrArg FP.data hz).symm
  have hD : ((F.impl E).function p.1).length = (F.impl E).size := Hash.size_eq L (File.lookup hF.toPre).2.1 _
  have hrun : appendFp E { data := new } new.length args { data := F.bytes E } = (.error e, fp) := by
    unfold appendFile at h
    generalize appendFp E { data := new } new.length args { data := F.bytes E } = q at h ⊢
    obtain ⟨r, fp'⟩ := q
    cases r with
    | error e' => cases h; rfl
    | ok k =>
      replace h : (if new.length = 0 then (.error .zeroDivisionError, fp') else (.ok (), fp') : Except Err Unit × FP) = (.error e, fp) := h
      rw [if_neg (by omega)] at h
      cases h
  cases ho : F.header.offsets with
  | false =>
    have := append_no_offsets L hF.toPre ho { data := new } new.length args []
    rw [hrun] at this
    cases this
    exact ⟨rfl, rfl⟩
  | true =>
    rw [← hzd] at hrun ⊢
    have hf : appendFile E (headPart E F init ++ (p.1 ++ ((F.impl E).function p.1 ++ F.junk))) new args = (.error e, fp) := by rw [hzd]; exact h
    exact foreign_failed L hF hnn hch hcs hlc _ (take_digest hD _) ho new hne args e fp hf hsize

/-- C85 is violated: if the header claims a last chunk so large that the new size cannot be written down, appending raises `struct.error`
after it has filled up the last chunk: it failed, yet the file now unpacks to the previous data followed by the new data. -/
theorem C85_failed_violated (L : E.Laws) (hF : F.Located E) (hnn : F.NoNull) (ho : F.header.offsets = true)
    (hch : F.chunks = init ++ [p]) (new : Bytes) (hlc : 2 ^ 31 ≤ F.header.last_chunk + new.length)
    (hfit : (p.2.length : Int) + new.length ≤ F.header.chunk_size) (args : AppendArgs) (c : Bytes)
    (hcomp : E.compress (p.2 ++ new) (args.filled F.header) = .ok c) :
    unpackBytesFromBytes E (F.bytes E) = .ok (F.data, F.metadata) ∧
    ∃ fp : FP, appendFile E (F.bytes E) new args = (.error .structError, fp) ∧
      unpackBytesFromBytes E fp.data = .ok (F.data ++ new, F.metadata) := by
  refine ⟨unpackBytes_ok (unpackFrom_file L hF.toValid), ?_⟩
  have hz : ({ data := F.bytes E } : FP) = Z [] (headPart E F init ++ (p.1 ++ ((F.impl E).function p.1 ++ F.junk))) [] := by
    rw [File.bytes, File.body, hch]
    simp [headPart, records_append, File.front, Z, Spec.records]
  have hD : ((F.impl E).function p.1).length = (F.impl E).size := Hash.size_eq L (File.lookup hF.toPre).2.1 _
  have hst := appendFrom_start_at L hF ho (offsetsPos_ok L hF.toPre hnn) hch _ (take_digest hD _) (fun n => (({ data := new } : FP).read n).1)
    (fun b cs lc k => (plainFPSource (({ data := new } : FP).read b).2 cs lc k).items) new.length args []
  rw [← hz, if_pos (by omega), read_at_start, List.take_length] at hst
  obtain ⟨o1, o2, o3, o4, o5, o6, o7, o8, o9, o10⟩ := hF.ok
  have henc : ({ F.header with last_chunk := F.header.last_chunk + new.length } : BloscpackHeader).encode = .error .structError := by
    unfold BloscpackHeader.encode
    rw [encodeUInt8_of o1.1 o1.2, parse_createOptions, checksumsAvail_eq, indexOf_of o2, encodeUInt8_of o3.1 o3.2,
      encodeInt32_of (by simp only; omega) (by simp only; omega), C07_encode_int32, if_neg (by simp only; omega)]
    simp only [Except.ok_bind']
    rw [encodeUInt8_idx o2 (by decide)]
    rfl
  have hrun : ∃ fp, squeezeIn E F.header (F.impl E) (headPart E F init).length (args.filled F.header) p.2 new new.length
      (Z (headPart E F init ++ (p.1 ++ (F.impl E).function p.1)) F.junk []) = (.error .structError, fp) ∧
      fp.data = headPart E F init ++ ((chunkWrites (F.impl E) c).flatten ++
        (p.1 ++ ((F.impl E).function p.1 ++ F.junk)).drop (chunkWrites (F.impl E) c).flatten.length) := by
    refine ⟨wrote (headPart E F init) (p.1 ++ ((F.impl E).function p.1 ++ F.junk)) [] ([] ++ chunkWrites (F.impl E) c), ?_, ?_⟩
    · unfold squeezeIn
      rw [Proc.bind_of_ok (fpSeek_Z _ _ (headPart E F init) (p.1 ++ ((F.impl E).function p.1 ++ F.junk)) [] _ (by simp) rfl),
        Proc.bind_of_ok (Proc.ofExcept_apply _ _ |>.trans (by rw [hcomp])), ← wrote_nil,
        Proc.bind_of_ok (writeCompressedChunk_wrote _ _ _ _ _ _),
        Proc.bind_of_error (Proc.ofExcept_apply _ _ |>.trans (by rw [henc]))]
    · simp [wrote, Z, FP.data]
  obtain ⟨fp, h1, h2⟩ := hrun
  rw [h1] at hst
  refine ⟨fp, ?_, ?_⟩
  · unfold appendFile
    have : appendFp E { data := new } new.length args { data := F.bytes E } = _ := hst
    rw [this]
  · have hm : 0 ≤ F.header.max_app_chunks := hF.ok.2.2.2.2.2.2.1.1
    have hv := grownFile_valid (C := [(c, p.2 ++ new)]) (last := F.header.last_chunk) (tail := p.1 ++ ((F.impl E).function p.1 ++ F.junk))
      (a := args.filled F.header) L hF ho hch (by omega) (by simp) (by simpa using hm) o5.1 (o10 (by omega) (by omega)) (by simpa using hcomp)
    have hb : fp.data = (grownFile E F init [(c, p.2 ++ new)] F.header.last_chunk (p.1 ++ ((F.impl E).function p.1 ++ F.junk))).bytes E := by
      generalize hG : grownFile E F init [(c, p.2 ++ new)] F.header.last_chunk (p.1 ++ ((F.impl E).function p.1 ++ F.junk)) = G
      have hGh : G.header = F.header := by rw [← hG]; simp [grownFile]
      have hoff : G.offsets = F.offsets := by
        rw [← hG, hF.table ho]
        simp only [grownFile, hch, List.map_append, List.map_singleton, List.length_singleton]
        rw [positions_snoc_congr _ _ _ c p.1]
        simp
      have hGi : G.impl E = F.impl E := by rw [← hG]; rfl
      have hGs : G.secBytes E = F.secBytes E := by rw [← hG]; rfl
      have hGc : G.chunks = init ++ [(c, p.2 ++ new)] := by rw [← hG]; rfl
      have hGj : G.junk = (p.1 ++ ((F.impl E).function p.1 ++ F.junk)).drop (Spec.records (F.impl E).function [c]).length := by rw [← hG]; rfl
      rw [h2, File.bytes, File.front, File.body, hoff, hGi, hGs, hGc, hGj, hGh, headPart, chunkWrites_flatten]
      simp [records_append, File.front]
    rw [hb, unpackBytes_ok (unpackFrom_file L hv)]
    congr 2
    show ((init ++ [(c, p.2 ++ new)]).map (·.2)).flatten = (F.chunks.map (·.2)).flatten ++ _
    rw [hch]
    simp

/-- C85 is violated: if the last offset of a file points behind its chunks, where there is something that looks like a chunk, appending
succeeds and the appended data is gone: the file unpacks to what it unpacked to before. The reader does not look at the offsets, so it
accepts the file before and afterwards. -/
theorem C85_wrong_offset_violated (L : E.Laws) (hF : F.Valid E) (hnn : F.NoNull) (ho : F.header.offsets = true)
    (pre : List Int) (T : Bytes) (hoff : F.offsets = Spec.int64s (pre ++ [((F.front E ++ F.body E).length : Int)]) ++ T)
    (hlen : pre.length + 1 = F.chunks.length) (hpre : ∀ o ∈ pre, -2 ^ 63 ≤ o ∧ o < 2 ^ 63) (hend : ((F.front E ++ F.body E).length : Int) < 2 ^ 63) (q : Bytes × Bytes) (hq : E.decompress q.1 = .ok q.2)
    (D R : Bytes) (hD : D.length = (F.impl E).size) (hj : F.junk = q.1 ++ (D ++ R))
    (hcs : 0 ≤ F.header.chunk_size)
    (new : Bytes) (hne : new ≠ [])
    (hfit : (q.2.length : Int) + new.length ≤ F.header.chunk_size) (hfit' : F.header.last_chunk + new.length ≤ F.header.chunk_size)
    (args : AppendArgs) (c : Bytes) (hcomp : E.compress (q.2 ++ new) (args.filled F.header) = .ok c) :
    unpackBytesFromBytes E (F.bytes E) = .ok (F.data, F.metadata) ∧
    ∃ fp : FP, appendFile E (F.bytes E) new args = (.ok (), fp) ∧ unpackBytesFromBytes E fp.data = .ok (F.data, F.metadata) := by
  refine ⟨unpackBytes_ok (unpackFrom_file L hF), ?_⟩
  have hpos : 0 < new.length := List.length_pos_iff.2 hne
  have hl0 : -1 ≤ F.header.last_chunk := hF.ok.2.2.2.2.1.1
  have hA : F.front E ++ (F.body E ++ F.junk) = (F.front E ++ F.body E) ++ (q.1 ++ (D ++ R)) := by rw [hj]; simp
  have hos : decodeOffsets F.offsets F.header.nchunks.toNat = .ok (pre ++ [((F.front E ++ F.body E).length : Int)]) := by
    have := hF.nchunks
    rw [hoff, show F.header.nchunks.toNat = (pre ++ [((F.front E ++ F.body E).length : Int)]).length by simp; omega]
    refine decodeOffsets_int64s _ ?_ _
    intro o h
    rcases List.mem_append.1 h with h | h
    · have := hpre o h
      omega
    · rw [List.mem_singleton.1 h]
      omega
  have hst := appendFrom_start_raw L hF.toPre ho (offsetsPos_ok L hF.toPre hnn) hos hA (by unfold lastOffset; simp) hq (take_digest hD _)
    (fun n => (({ data := new } : FP).read n).1)
    (fun b cs lc k => (plainFPSource (({ data := new } : FP).read b).2 cs lc k).items) new.length args []
  have hz : ({ data := F.bytes E } : FP) = Z [] (F.front E ++ (F.body E ++ F.junk)) [] := rfl
  rw [← hz, if_pos (by omega), read_at_start, List.take_length] at hst
  generalize hA' : F.front E ++ F.body E = A at hst hA
  have hAB : A = F.header.bytes ++ (F.secBytes E ++ (F.offsets ++ F.body E)) := by rw [← hA']; simp [File.front]
  have hok : ({ F.header with last_chunk := F.header.last_chunk + new.length } : BloscpackHeader).OK := by
    obtain ⟨o1, o2, o3, o4, o5, o6, o7, o8, o9, o10⟩ := hF.ok
    refine ⟨o1, o2, o3, o4, ?_, o6, o7, o8, o9, ?_⟩ <;> simp only <;> omega
  obtain ⟨fp, hrun, hdata⟩ := squeeze_run (E := E) (impl := F.impl E) (c := q.1) (D := D) (R := R) (n := new.length) hAB hcomp
    (BloscpackHeader.encode_ok hok)
  rw [hrun] at hst
  refine ⟨fp, ?_, ?_⟩
  · unfold appendFile
    have : appendFp E { data := new } new.length args { data := F.bytes E } = _ := hst
    rw [this]
    exact if_neg (by omega)
  · generalize hG : ({ F with header := { F.header with last_chunk := F.header.last_chunk + new.length }, junk :=
      (chunkWrites (F.impl E) c).flatten ++ (q.1 ++ (D ++ R)).drop (chunkWrites (F.impl E) c).flatten.length } : File μ) = G
    have hGv : G.Valid E := by
      subst hG
      exact { ok := hok, version := hF.version, meta_flag := hF.meta_flag, sec_ok := hF.sec_ok, offsets_len := hF.offsets_len,
              offsets_small := hF.offsets_small, nchunks_le := hF.nchunks_le, chunks_ok := hF.chunks_ok, nchunks := hF.nchunks }
    have hGb : G.bytes E = ({ F.header with last_chunk := F.header.last_chunk + new.length } : BloscpackHeader).bytes ++
        ((F.secBytes E ++ (F.offsets ++ F.body E)) ++ ((chunkWrites (F.impl E) c).flatten ++
          (q.1 ++ (D ++ R)).drop (chunkWrites (F.impl E) c).flatten.length)) := by
      subst hG
      show (_ ++ (F.secBytes E ++ F.offsets)) ++ (F.body E ++ _) = _
      simp
    rw [hdata, ← hGb, unpackBytes_ok (unpackFrom_file L hGv)]
    subst hG
    rfl

end

namespace Toy

/-- a stored chunk -/
def stored (d : Bytes) : Bytes × Bytes :=
  ([2, 1, 2, 1] ++ leEncode 4 d.length ++ leEncode 4 d.length ++ leEncode 4 (d.length + 16) ++ d, d)

/-- what another program might write: chunks of three, one and two bytes, sizes as wished -/
def foreign (cs lc : Int) (offs : List Int) (junk : Bytes) : File Nat :=
  { header := { format_version := 3, offsets := true, metadata := false, checksum := "adler32", typesize := 1, chunk_size := cs, last_chunk := lc,
                nchunks := 3, max_app_chunks := 2 },
    sec := none, offsets := Spec.int64s (offs ++ [-1, -1]), chunks := [stored [1, 2, 3], stored [4], stored [5, 6]], junk := junk }

theorem foreign_valid {cs lc : Int} {offs : List Int} {junk : Bytes} (h1 : -1 ≤ cs ∧ cs ≤ 2 ^ 31 - 17) (h2 : -1 ≤ lc ∧ lc ≤ 2 ^ 31 - 17)
    (h3 : cs ≠ -1 → lc ≠ -1 → lc ≤ cs) (h4 : offs.length = 3) : (foreign cs lc offs junk).Valid env where
  ok := by
    refine ⟨?_, ?_, ?_, ?_, ?_, ?_, ?_, ?_, ?_, h3⟩
    · show (0 : Int) ≤ 3 ∧ (3 : Int) ≤ 255
      decide
    · show "adler32" ∈ Spec.checksumNames
      decide
    · show (0 : Int) ≤ 1 ∧ (1 : Int) ≤ 255
      decide
    · show -1 ≤ cs ∧ cs ≤ 2 ^ 31 - 17
      omega
    · show -1 ≤ lc ∧ lc ≤ 2 ^ 31 - 17
      omega
    · show (-1 : Int) ≤ 3 ∧ (3 : Int) ≤ 2 ^ 63 - 1
      decide
    · show (0 : Int) ≤ 2 ∧ (2 : Int) ≤ 2 ^ 63 - 1
      decide
    · show (3 : Int) ≠ -1 → (3 : Int) + 2 ≤ 2 ^ 63 - 1
      decide
    · show (3 : Int) = -1 → (2 : Int) = 0
      decide
  version := rfl
  meta_flag := rfl
  sec_ok := fun s hs => nomatch hs
  offsets_len := by
    match offs, h4 with
    | [a, b, c], _ => rfl
  offsets_small := by
    show (40 : Nat) < 2 ^ 63
    decide
  nchunks_le := by
    show (3 : Int) ≤ 3
    decide
  chunks_ok := by
    show ∀ p ∈ [stored [1, 2, 3], stored [4], stored [5, 6]], decompress p.1 = .ok p.2
    decide +kernel
  nchunks := rfl

theorem foreign_located {cs lc : Int} (h1 : -1 ≤ cs ∧ cs ≤ 2 ^ 31 - 17) (h2 : -1 ≤ lc ∧ lc ≤ 2 ^ 31 - 17) (h3 : cs ≠ -1 → lc ≠ -1 → lc ≤ cs) :
    (foreign cs lc [72, 95, 116] []).Located env where
  toValid := foreign_valid h1 h2 h3 rfl
  table := fun _ => by
    have : ((foreign cs lc [72, 95, 116] []).front env).length = 72 := by
      rw [File.front, List.length_append, BloscpackHeader.bytes_length]; rfl
    rw [this]
    rfl
  reach := fun _ => by
    have : ((foreign cs lc [72, 95, 116] []).front env).length = 72 := by
      rw [File.front, List.length_append, BloscpackHeader.bytes_length]; rfl
    rw [this]
    show ∀ o ∈ [(72 : Int), 95, 116], o < 2 ^ 63
    decide

theorem foreign_noNull {cs lc : Int} {offs : List Int} {junk : Bytes} : (foreign cs lc offs junk).NoNull := fun _ => rfl

theorem pair_of {α β γ : Type} {x : Except α β × γ} {b : β} (h : x.1 = .ok b) : x = (.ok b, x.2) := by rw [← h]

theorem pair_of_error {α β γ : Type} {x : Except α β × γ} {e : α} (h : x.1 = .error e) : x = (.error e, x.2) := by rw [← h]

-- what happens when five bytes, or one, are appended: the size of the last chunk known and unknown
example : (appendFile env ((foreign 4 2 [72, 95, 116] []).bytes env) [7, 8, 9, 10, 11] {}).1 = .ok () := by decide +kernel
example : (appendFile env ((foreign 4 (-1) [72, 95, 116] []).bytes env) [7, 8, 9, 10, 11] {}).1 = .ok () := by decide +kernel

example : unpackBytesFromBytes env (appendFile env ((foreign 4 (-1) [72, 95, 116] []).bytes env) [7, 8, 9, 10, 11] {}).2.data =
    .ok ([1, 2, 3, 4, 5, 6, 7, 8, 9, 10, 11], none) :=
  (C85_appends_partial (F := foreign 4 (-1) [72, 95, 116] []) (init := [stored [1, 2, 3], stored [4]]) (p := stored [5, 6]) laws
    (foreign_located (by decide) (by decide) (by decide)) foreign_noNull rfl (by decide) (by decide) [7, 8, 9, 10, 11] {} _
    (pair_of (by decide +kernel))).1

example : ∃ fp, appendFile env ((foreign (-1) 2 [72, 95, 116] []).bytes env) [7] {} = (.error .valueError, fp) ∧
    fp.data = (foreign (-1) 2 [72, 95, 116] []).bytes env :=
  C85_unknown_chunk_size laws (foreign_located (by decide) (by decide) (by decide)) foreign_noNull rfl (by decide) rfl _ _

example : ∃ (fp : FP) (G : File Nat), appendFile env ((foreign 4 (-1) [72, 95, 116] []).bytes env) [7] {} = (.ok (), fp) ∧
    fp.data = G.bytes env ∧ G.Valid env ∧ G.chunks = [stored [1, 2, 3], stored [4]] ++ [stored [5, 6, 7]] ∧
    G.header.last_chunk = ([7] : Bytes).length - 1 ∧ G.header.last_chunk ≠ ([5, 6] ++ [7] : Bytes).length :=
  C85_unknown_last_chunk_violated (F := foreign 4 (-1) [72, 95, 116] []) (init := [stored [1, 2, 3], stored [4]]) (p := stored [5, 6]) laws
    (foreign_located (by decide) (by decide) (by decide)) foreign_noNull rfl rfl rfl [7] (by decide) (by decide) {} (stored [5, 6, 7]).1 (by decide)

example : unpackBytesFromBytes env ((foreign 4 4 [72, 95, 116] []).bytes env) = .ok ([1, 2, 3, 4, 5, 6], none) ∧
    ∃ (fp : FP) (e : Err), appendFile env ((foreign 4 4 [72, 95, 116] []).bytes env) [7] {} = (.ok (), fp) ∧
      unpackBytesFromBytes env fp.data = .error e :=
  C85_long_last_chunk_violated laws (foreign_located (by decide) (by decide) (by decide)) foreign_noNull rfl (init := [_, _]) rfl _ (by decide) (by decide)
    (by decide) {} (stored [5, 6, 7]).1 (by decide)

-- 17 bytes to a file that claims its last chunk, of two bytes, to be as long as a chunk can be
example : unpackBytesFromBytes env ((foreign (2 ^ 31 - 17) (2 ^ 31 - 17) [72, 95, 116] []).bytes env) = .ok ([1, 2, 3, 4, 5, 6], none) ∧
    ∃ fp : FP, appendFile env ((foreign (2 ^ 31 - 17) (2 ^ 31 - 17) [72, 95, 116] []).bytes env) (List.replicate 17 7) {} = (.error .structError, fp) ∧
      unpackBytesFromBytes env fp.data = .ok ([1, 2, 3, 4, 5, 6] ++ List.replicate 17 7, none) :=
  C85_failed_violated (F := foreign (2 ^ 31 - 17) (2 ^ 31 - 17) [72, 95, 116] []) (init := [stored [1, 2, 3], stored [4]]) (p := stored [5, 6]) laws
    (foreign_located (by decide) (by decide) (by decide)) foreign_noNull rfl rfl _ (by decide) (by decide) {} (stored ([5, 6] ++ List.replicate 17 7)).1
    (by decide)

-- two appends, one of them into an unknown last chunk
example : ∃ d', Appended env ((foreign 4 (-1) [72, 95, 116] []).bytes env) [[7], [8, 9, 10]] d' ∧
    unpackBytesFromBytes env d' = .ok ([1, 2, 3, 4, 5, 6, 7, 8, 9, 10], none) := by
  have h : Appended env ((foreign 4 (-1) [72, 95, 116] []).bytes env) [[7], [8, 9, 10]] _ :=
    .cons {} (pair_of (by decide +kernel)) (.cons {} (pair_of (by decide +kernel)) (.nil _))
  exact ⟨_, h, C85_history_partial laws h _
    ⟨foreign_located (by decide) (by decide) (by decide), foreign_noNull, [stored [1, 2, 3], stored [4]], stored [5, 6], rfl, by decide, by decide⟩ rfl⟩

-- no space left for a hundred bytes
example : (appendFile env ((foreign 4 (-1) [72, 95, 116] []).bytes env) (List.replicate 100 7) {}).2.data = (foreign 4 (-1) [72, 95, 116] []).bytes env :=
  (C85_failed_untouched_partial (F := foreign 4 (-1) [72, 95, 116] []) (init := [stored [1, 2, 3], stored [4]]) (p := stored [5, 6]) laws
    (foreign_located (by decide) (by decide) (by decide)) foreign_noNull rfl (by decide) (by decide) (List.replicate 100 7) (by decide) {} .notEnoughSpace _
    (pair_of_error (by decide +kernel)) (by decide +kernel)).1

-- the last offset leads to a chunk behind the last one: the byte appended there is not seen by the reader
example : unpackBytesFromBytes env ((foreign 4 2 [72, 95, 138] ((stored [5, 6]).1 ++ [0, 0, 0, 0])).bytes env) = .ok ([1, 2, 3, 4, 5, 6], none) ∧
    ∃ fp : FP, appendFile env ((foreign 4 2 [72, 95, 138] ((stored [5, 6]).1 ++ [0, 0, 0, 0])).bytes env) [7] {} = (.ok (), fp) ∧
      unpackBytesFromBytes env fp.data = .ok ([1, 2, 3, 4, 5, 6], none) :=
  C85_wrong_offset_violated laws (foreign_valid (by decide) (by decide) (by decide) rfl) foreign_noNull rfl [72, 95]
    (Spec.int64s [-1, -1]) (by decide +kernel) rfl (by decide) (by decide +kernel) (stored [5, 6]) (by decide) [0, 0, 0, 0] [] (by decide) rfl (by decide) _ (by decide)
    (by decide) (by decide) {} (stored [5, 6, 7]).1 (by decide)

end Toy

end Bloscpack
