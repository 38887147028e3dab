import Verif.Lemmas.PackFile
import Verif.Lemmas.PackTotal
import Verif.Lemmas.Locate
import Verif.Spec.Append
/-
What `append_fp` does to a conforming file.
-/
namespace Bloscpack
variable {μ : Type}

/-- reading a chunk followed by anything of the length of a digest -/
theorem readChunk_digest (impl : Hash) (A c D R : Bytes) (l) (hc : Framed c) (hD : D.length = impl.size) :
    ∃ (bh : BloscHeader) (dg : Option Bytes), readCompressedChunk impl (Z A (c ++ (D ++ R)) l) =
      (.ok (c, bh, dg), Z (A ++ (c ++ D)) R l) := by
  obtain ⟨hc1, hc2⟩ := hc
  have hs : slice (c ++ (D ++ R)) 12 16 = slice c 12 16 := slice_append_left _ _ _ _ hc1
  obtain ⟨bh, h1, h2, h3⟩ := readChunk_general impl A (c ++ (D ++ R)) l (by simp; omega)
  rw [hs, hc2] at h2 h3
  by_cases hsz : impl.size > 0
  · refine ⟨bh, some D, ?_⟩
    rw [h3]
    simp [if_pos hsz, ← hD]
    rintro rfl; simp at hD; omega
  · have : D = [] := List.eq_nil_of_length_eq_zero (by omega)
    subst this
    refine ⟨bh, none, ?_⟩
    rw [h3]
    simp [hsz]

/-- the same if the digest is cut short by the end of the file -/
theorem readChunk_cut (impl : Hash) (A c D R : Bytes) (l) (hc : Framed c) (hD : (D ++ R).take impl.size = D) :
    ∃ (bh : BloscHeader) (dg : Option Bytes), readCompressedChunk impl (Z A (c ++ (D ++ R)) l) =
      (.ok (c, bh, dg), Z (A ++ (c ++ D)) R l) := by
  obtain ⟨hc1, hc2⟩ := hc
  have hs : slice (c ++ (D ++ R)) 12 16 = slice c 12 16 := slice_append_left _ _ _ _ hc1
  obtain ⟨bh, h1, h2, h3⟩ := readChunk_general impl A (c ++ (D ++ R)) l (by simp; omega)
  rw [hs, hc2] at h2 h3
  have hdrop : (D ++ R).drop impl.size = R := by
    have := List.take_append_drop impl.size (D ++ R)
    rw [hD] at this
    exact List.append_cancel_left this
  by_cases hsz : impl.size > 0
  · refine ⟨bh, some D, ?_⟩
    rw [h3]
    simp [if_pos hsz, hD, hdrop]
  · have h0 : impl.size = 0 := by omega
    rw [h0] at hD
    have : D = [] := by simpa using hD.symm
    subst this
    refine ⟨bh, none, ?_⟩
    rw [h3]
    simp [hsz]

theorem take_digest {D : Bytes} {n : Nat} (hD : D.length = n) (R : Bytes) : (D ++ R).take n = D := by simp [← hD]

theorem AppendArgs.fill_ok (x : AppendArgs) {h : BloscpackHeader} (hok : h.OK) : x.fill h = .ok (x.filled h) := by
  have ht : h.typesize ≠ -1 := by have := hok.2.2.1.1; omega
  have hk : checkArgs bloscArgKeys bloscArgKeys = .ok () := by decide
  unfold AppendArgs.fill AppendArgs.filled
  cases x.typesize with
  | none => simp [ht, hk]
  | some t => simp [hk]

theorem offsetsPos_ok {E : Env μ} (L : E.Laws) {F : File μ} (hv : F.Pre E) (hnn : F.NoNull) :
    offsetsPos E F.metadata (F.sec.map (·.header)) = .ok ((32 + (F.secBytes E).length : Nat) : Int) := by
  cases hm : F.metadata with
  | none =>
    have := hnn hm
    simp [offsetsPos, File.secBytes, this, BLOSCPACK_HEADER_LENGTH]
  | some m =>
    cases hs : F.sec with
    | none => simp [File.metadata, hs] at hm
    | some s =>
      have h1 := Section.lookup (hv.sec_ok s hs)
      have h2 := Section.bytes_length L (hv.sec_ok s hs)
      simp only [offsetsPos, Option.map_some, h1.1, Except.ok_bind', Except.pure_eq, File.secBytes, hs, BLOSCPACK_HEADER_LENGTH,
        METADATA_HEADER_LENGTH]
      congr 1
      omega

theorem lastOffset_positions (f : Bytes → Bytes) (s : Nat) (cs : List Bytes) (c : Bytes) :
    lastOffset (Spec.positions f s (cs ++ [c])) = .ok ((s + (Spec.records f cs).length : Nat) : Int) := by
  rw [positions_append]
  simp [lastOffset, Spec.positions]

/-- `squeezeIn` and `growBy`, reading from a file -/
def appendSqueeze (E : Env μ) (h : BloscpackHeader) (impl : Hash) (last : Int) (a : BloscArgs)
    (decompressed : Bytes) (new : FP) (new_size : Int) : Proc FP Int :=
  squeezeIn E h impl last a decompressed (new.read new_size).1 new_size

def appendGrow (E : Env μ) (h : BloscpackHeader) (impl : Hash) (offsets : List Int) (offsets_pos last : Int)
    (a : BloscArgs) (decompressed : Bytes) (new : FP) (new_size bytes_to_read : Int) : Proc FP Int :=
  growBy E h impl offsets offsets_pos last a decompressed (new.read bytes_to_read).1
    (fun cs lc k => (plainFPSource (new.read bytes_to_read).2 cs lc k).items) new_size bytes_to_read

section
variable {E : Env μ} {F : File μ} {init : List (Bytes × Bytes)} {p : Bytes × Bytes}

/-- everything before the last chunk -/
def headPart (E : Env μ) (F : File μ) (init : List (Bytes × Bytes)) : Bytes :=
  F.front E ++ Spec.records (F.impl E).function (init.map (·.1))

/-- the first half of `append_fp`: everything is read, nothing is written. The chunk that is filled up is whatever the last offset
points at. -/
theorem appendFrom_start_raw (L : E.Laws) (hv : F.Pre E) (ho : F.header.offsets = true) {pos : Int}
    (hpos : offsetsPos E F.metadata (F.sec.map (·.header)) = .ok pos) {os : List Int}
    (hos : decodeOffsets F.offsets F.header.nchunks.toNat = .ok os) {A c d D R T : Bytes}
    (hA : F.front E ++ T = A ++ (c ++ (D ++ R))) (hlast : lastOffset os = .ok (A.length : Int)) (hp : E.decompress c = .ok d)
    (hD : (D ++ R).take (F.impl E).size = D) (first : Int → Bytes) (source : Int → Int → Int → Int → List Bytes) (n : Int) (args : AppendArgs)
    (l : List (Nat × Bytes)) :
    appendFrom E first source n args (Z [] (F.front E ++ T) l) =
      (if n ≤ F.header.chunk_size - d.length then
        squeezeIn E F.header (F.impl E) A.length (args.filled F.header) d (first n) n (Z (A ++ (c ++ D)) R l)
      else growBy E F.header (F.impl E) os pos A.length (args.filled F.header) d (first (F.header.chunk_size - d.length))
        (source (F.header.chunk_size - d.length)) n (F.header.chunk_size - d.length) (Z (A ++ (c ++ D)) R l)) := by
  obtain ⟨hl1, hl2, -⟩ := File.lookup hv
  obtain ⟨os', h1, h2, -⟩ := readBeginning_file L hv T l
  have h2 := h2 ho
  rw [hos] at h2
  cases h2
  have hne : os ≠ [] := by
    intro h
    rw [h] at hlast
    cases hlast
  obtain ⟨bh, dg, hrd⟩ := readChunk_cut (F.impl E) A c D R l (framed_of_decompress L hp) hD
  have hsk : fpSeek (A.length : Int) (Z (F.front E) T l) = (.ok (), Z A (c ++ (D ++ R)) l) := fpSeek_Z _ _ _ _ _ _ hA rfl
  unfold appendFrom
  rw [Proc.bind_of_ok h1]
  simp only
  rw [Proc.bind_of_ok (Proc.ofExcept_apply _ _ |>.trans (by rw [hl1])),
    Proc.bind_of_ok (Proc.raiseIf_neg hne _ _),
    Proc.bind_of_ok (Proc.ofExcept_apply _ _ |>.trans (by rw [args.fill_ok hv.ok])),
    Proc.bind_of_ok (Proc.ofExcept_apply _ _ |>.trans (by rw [hpos])),
    Proc.bind_of_ok (Proc.ofExcept_apply _ _ |>.trans (by rw [hlast])),
    Proc.bind_of_ok hsk, Proc.bind_of_ok hrd,
    Proc.bind_of_ok (Proc.ofExcept_apply _ _ |>.trans (by rw [hp]))]
  split <;> rfl

theorem appendFrom_start_at (L : E.Laws) (hc : F.Located E) (ho : F.header.offsets = true) {pos : Int}
    (hpos : offsetsPos E F.metadata (F.sec.map (·.header)) = .ok pos) (hch : F.chunks = init ++ [p]) (D : Bytes) (hD : (D ++ F.junk).take (F.impl E).size = D)
    (first : Int → Bytes) (source : Int → Int → Int → Int → List Bytes) (n : Int) (args : AppendArgs)
    (l : List (Nat × Bytes)) :
    appendFrom E first source n args (Z [] (headPart E F init ++ (p.1 ++ (D ++ F.junk))) l) =
      (if n ≤ F.header.chunk_size - p.2.length then
        squeezeIn E F.header (F.impl E) (headPart E F init).length (args.filled F.header) p.2 (first n) n
          (Z (headPart E F init ++ (p.1 ++ D)) F.junk l)
      else growBy E F.header (F.impl E)
        (Spec.positions (F.impl E).function (F.front E).length (F.chunks.map (·.1))) pos
        (headPart E F init).length (args.filled F.header) p.2 (first (F.header.chunk_size - p.2.length))
        (source (F.header.chunk_size - p.2.length)) n (F.header.chunk_size - p.2.length)
        (Z (headPart E F init ++ (p.1 ++ D)) F.junk l)) := by
  have hp : E.decompress p.1 = .ok p.2 := hc.chunks_ok p (by rw [hch]; simp)
  have hlast : lastOffset (Spec.positions (F.impl E).function (F.front E).length (F.chunks.map (·.1))) =
      .ok ((headPart E F init).length : Int) := by
    rw [show F.chunks.map (·.1) = init.map (·.1) ++ [p.1] by rw [hch]; simp, lastOffset_positions]; simp [headPart]
  have e0 : headPart E F init ++ (p.1 ++ (D ++ F.junk)) =
      F.front E ++ (Spec.records (F.impl E).function (init.map (·.1)) ++ (p.1 ++ (D ++ F.junk))) := by simp [headPart]
  rw [e0]
  exact appendFrom_start_raw L hc.toPre ho hpos (hc.decode_table ho) e0.symm hlast hp hD first source n args l

theorem appendFp_start_at (L : E.Laws) (hc : F.Conforming E) (ho : F.header.offsets = true) {pos : Int}
    (hpos : offsetsPos E F.metadata (F.sec.map (·.header)) = .ok pos) (hch : F.chunks = init ++ [p]) (D : Bytes) (hD : D.length = (F.impl E).size) (new : FP) (n : Int) (args : AppendArgs)
    (l : List (Nat × Bytes)) :
    appendFp E new n args (Z [] (headPart E F init ++ (p.1 ++ (D ++ F.junk))) l) =
      (if n ≤ F.header.chunk_size - p.2.length then
        appendSqueeze E F.header (F.impl E) (headPart E F init).length (args.filled F.header) p.2 new n
          (Z (headPart E F init ++ (p.1 ++ D)) F.junk l)
      else appendGrow E F.header (F.impl E)
        (Spec.positions (F.impl E).function (F.front E).length (F.chunks.map (·.1))) pos
        (headPart E F init).length (args.filled F.header) p.2 new n (F.header.chunk_size - p.2.length)
        (Z (headPart E F init ++ (p.1 ++ D)) F.junk l)) :=
  appendFrom_start_at L hc.located ho hpos hch D (take_digest hD _) _ _ n args l

theorem appendFp_start (L : E.Laws) (hc : F.Conforming E) (ho : F.header.offsets = true) (hnn : F.NoNull)
    (hch : F.chunks = init ++ [p]) (D : Bytes) (hD : D.length = (F.impl E).size) (new : FP) (n : Int) (args : AppendArgs)
    (l : List (Nat × Bytes)) :
    appendFp E new n args (Z [] (headPart E F init ++ (p.1 ++ (D ++ F.junk))) l) =
      (if n ≤ F.header.chunk_size - p.2.length then
        appendSqueeze E F.header (F.impl E) (headPart E F init).length (args.filled F.header) p.2 new n
          (Z (headPart E F init ++ (p.1 ++ D)) F.junk l)
      else appendGrow E F.header (F.impl E)
        (Spec.positions (F.impl E).function (F.front E).length (F.chunks.map (·.1))) (32 + (F.secBytes E).length : Nat)
        (headPart E F init).length (args.filled F.header) p.2 new n (F.header.chunk_size - p.2.length)
        (Z (headPart E F init ++ (p.1 ++ D)) F.junk l)) :=
  appendFp_start_at L hc ho (offsetsPos_ok L hc.toPre hnn) hch D hD new n args l

/-- the file after an append that replaced the last chunk and added chunks: `chs` are the new last chunks, `tail` is what
was in the file from the old last chunk on -/
def grownFile (E : Env μ) (F : File μ) (init chs : List (Bytes × Bytes)) (last : Int) (tail : Bytes) : File μ where
  header := { F.header with
    last_chunk := last
    nchunks := F.header.nchunks + (chs.length - 1)
    max_app_chunks := F.header.max_app_chunks - (chs.length - 1) }
  sec := F.sec
  offsets := Spec.int64s (Spec.positions (F.impl E).function (F.front E).length ((init ++ chs).map (·.1)) ++
    List.replicate (F.header.max_app_chunks - (chs.length - 1)).toNat (-1))
  chunks := init ++ chs
  junk := tail.drop (Spec.records (F.impl E).function (chs.map (·.1))).length

theorem grownFile_impl (E : Env μ) (F : File μ) (init chs last tail) : (grownFile E F init chs last tail).impl E = F.impl E := rfl
theorem grownFile_secBytes (E : Env μ) (F : File μ) (init chs last tail) :
    (grownFile E F init chs last tail).secBytes E = F.secBytes E := rfl

theorem File.front_length (hv : F.Pre E) : (F.front E).length = 32 + (F.secBytes E).length + offsetsLen F.header := by
  unfold File.front
  rw [List.length_append, List.length_append, hv.offsets_len, F.header.bytes_length]; omega

variable {chs : List (Bytes × Bytes)} {last : Int} {tail : Bytes}

theorem grownFile_header_ok (hok : F.header.OK) (hn : 0 ≤ F.header.nchunks) (hcs : 0 ≤ F.header.chunk_size)
    (hch : chs ≠ []) (hk : (chs.length : Int) - 1 ≤ F.header.max_app_chunks) (h0 : -1 ≤ last) (h1 : last ≤ F.header.chunk_size) :
    (grownFile E F init chs last tail).header.OK := by
  obtain ⟨o1, o2, o3, o4, o5, o6, o7, o8, o9, o10⟩ := hok
  have : 1 ≤ chs.length := by cases chs with | nil => exact absurd rfl hch | cons => simp
  refine ⟨o1, o2, o3, o4, ?_, ?_, ?_, ?_, ?_, ?_⟩ <;> simp only [grownFile] <;> omega

theorem grownFile_offsets_length (hn : F.header.nchunks = init.length + 1) (ho : F.header.offsets = true) (hch : chs ≠ [])
    (hk : (chs.length : Int) - 1 ≤ F.header.max_app_chunks) :
    (grownFile E F init chs last tail).offsets.length = offsetsLen F.header := by
  have : 1 ≤ chs.length := by cases chs with | nil => exact absurd rfl hch | cons => simp
  unfold grownFile offsetsLen
  simp only [ho, if_true, int64s_length, List.length_append, positions_length, List.length_map, List.length_replicate]
  omega

theorem grownFile_front_length (hv : F.Pre E) (hn : F.header.nchunks = init.length + 1) (ho : F.header.offsets = true) (hch : chs ≠ [])
    (hk : (chs.length : Int) - 1 ≤ F.header.max_app_chunks) :
    ((grownFile E F init chs last tail).front E).length = (F.front E).length := by
  rw [File.front_length hv]
  unfold File.front
  rw [List.length_append, List.length_append, grownFile_offsets_length hn ho hch hk, BloscpackHeader.bytes_length]
  rw [grownFile_secBytes]; omega

/-- appending keeps files conforming -/
theorem grownFile_conforming (hc : F.Conforming E) (ho : F.header.offsets = true) (hchunks : F.chunks = init ++ [p])
    {chs' : List (Bytes × Bytes)} {q : Bytes × Bytes} (hch : chs = chs' ++ [q])
    (hk : (chs.length : Int) - 1 ≤ F.header.max_app_chunks)
    (hdec : ∀ p ∈ chs, E.decompress p.1 = .ok p.2) (hlen : ∀ p ∈ chs', (p.2.length : Int) = F.header.chunk_size)
    (hq : (q.2.length : Int) = last) (h1 : last ≤ F.header.chunk_size)
    (hz : 1 ≤ last ∨ (chs' = [] ∧ F.header.nchunks = 1 ∧ F.header.chunk_size = 0 ∧ last = 0))
    (hreach : ∀ o ∈ Spec.positions (F.impl E).function (F.front E).length ((init ++ chs).map (·.1)), o < 2 ^ 63) :
    (grownFile E F init chs last tail).Conforming E := by
  have hne : chs ≠ [] := by rw [hch]; simp
  have hn : F.header.nchunks = init.length + 1 := by rw [hc.nchunks, hchunks]; simp
  have hfl := grownFile_front_length (last := last) (tail := tail) hc.toPre hn ho hne hk
  have hcs : 0 ≤ F.header.chunk_size := by
    rcases hc.sizes with h | h <;> omega
  have hl1 : chs.length = chs'.length + 1 := by rw [hch]; simp
  obtain ⟨init0, p0, e1, e2, e3⟩ := hc.lengths
  have hinit : ∀ r ∈ init, (r.2.length : Int) = F.header.chunk_size := by
    rw [hchunks] at e1
    have := (List.append_inj' e1 rfl).1
    rw [this]; exact e2
  have hcount : (grownFile E F init chs last tail).header.nchunks = ((init ++ chs).length : Int) := by
    show F.header.nchunks + ((chs.length : Int) - 1) = _
    rw [hn, List.length_append]; omega
  exact {
    ok := grownFile_header_ok hc.ok (by omega) hcs hne hk (by omega) h1
    version := hc.version
    meta_flag := hc.meta_flag
    sec_ok := hc.sec_ok
    offsets_len := by
      rw [grownFile_offsets_length hn ho hne hk]
      unfold offsetsLen
      simp only [grownFile]
      congr 2
      omega
    offsets_small := by
      have := hc.offsets_small
      unfold offsetsLen at this ⊢
      simp only [grownFile]
      rw [show F.header.nchunks + ((chs.length : Int) - 1) + (F.header.max_app_chunks - ((chs.length : Int) - 1)) =
        F.header.nchunks + F.header.max_app_chunks by omega]
      exact this
    nchunks_le := by rw [hcount]; exact Int.le_refl _
    nchunks := hcount
    chunks_ok := by
      intro r hr
      rcases List.mem_append.1 hr with h | h
      · exact hc.chunks_ok r (by rw [hchunks]; exact List.mem_append_left _ h)
      · exact hdec r h
    lengths := by
      refine ⟨init ++ chs', q, ?_, ?_, hq⟩
      · show init ++ chs = _; rw [hch, List.append_assoc]
      · intro r hr
        rcases List.mem_append.1 hr with h | h
        · exact hinit r h
        · exact hlen r h
    sizes := by
      show (1 ≤ last ∧ last ≤ F.header.chunk_size) ∨ (F.header.nchunks + ((chs.length : Int) - 1) = 1 ∧ F.header.chunk_size = 0 ∧ last = 0)
      rcases hz with h | ⟨h, h2, h3, h4⟩
      · exact .inl ⟨h, h1⟩
      · refine .inr ⟨?_, h3, h4⟩
        rw [hl1, h, h2]; simp
    table := by
      intro _
      rw [hfl]
      rfl
    reach := by
      intro _
      rw [hfl]
      exact hreach }

/-- the rest of `headPart` after the header -/
def headRest (E : Env μ) (F : File μ) (init : List (Bytes × Bytes)) : Bytes :=
  F.secBytes E ++ (F.offsets ++ Spec.records (F.impl E).function (init.map (·.1)))

theorem headPart_eq (E : Env μ) (F : File μ) (init) : headPart E F init = F.header.bytes ++ headRest E F init := by
  simp [headPart, headRest, File.front]

theorem seekZero_wrote (h : BloscpackHeader) (B tail : Bytes) (l : List (Nat × Bytes)) (bss : List Bytes) (A : Bytes)
    (hA : A = h.bytes ++ B) (h' : BloscpackHeader) :
    fpSeek 0 (wrote A tail l bss) =
      (.ok (), Z [] (h.bytes ++ (B ++ (bss.flatten ++ tail.drop bss.flatten.length))) (l ++ seqLog A.length bss)) ∧
    fpWrite h'.bytes (Z [] (h.bytes ++ (B ++ (bss.flatten ++ tail.drop bss.flatten.length))) (l ++ seqLog A.length bss)) =
      (.ok (), Z h'.bytes (B ++ (bss.flatten ++ tail.drop bss.flatten.length)) (l ++ seqLog A.length bss ++ [(0, h'.bytes)])) := by
  constructor
  · unfold wrote
    apply fpSeek_Z
    · subst hA; simp
    · rfl
  · rw [fpWrite_Z]
    rw [List.drop_left' (by rw [h.bytes_length, h'.bytes_length])]
    rfl

theorem read_new (new : Bytes) (n : Nat) : ({ data := new } : FP).read n = (new.take n, Z (new.take n) (new.drop n) []) := by
  have := fpRead_Z [] new [] n
  simp only [fpRead_eq, Prod.mk.injEq, Except.ok.injEq] at this
  exact Prod.ext this.1 this.2

theorem positions_snoc_congr (f : Bytes → Bytes) (s : Nat) (cs : List Bytes) (c c' : Bytes) :
    Spec.positions f s (cs ++ [c]) = Spec.positions f s (cs ++ [c']) := by
  rw [positions_append, positions_append]; rfl

theorem appendSqueeze_error {h : BloscpackHeader} {impl : Hash} {a : BloscArgs} {d new : Bytes} {n : Nat} {e : Err}
    (A X R : Bytes) (l : List (Nat × Bytes)) (he : E.compress (d ++ new.take n) a = .error e) :
    appendSqueeze E h impl A.length a d { data := new } n (Z (A ++ X) R l) = (.error e, Z A (X ++ R) l) := by
  unfold appendSqueeze squeezeIn
  rw [read_new]
  rw [Proc.bind_of_ok (fpSeek_Z (A ++ X) R A (X ++ R) l _ (by simp) rfl),
    Proc.bind_of_error (Proc.ofExcept_apply _ _ |>.trans (by rw [he]))]

theorem appendSqueeze_ok (hc : F.Conforming E) (ho : F.header.offsets = true) (hchunks : F.chunks = init ++ [p])
    (D : Bytes) {a : BloscArgs} {new c : Bytes} (hfit : (new.length : Int) ≤ F.header.chunk_size - p.2.length)
    (hcomp : E.compress (p.2 ++ new) a = .ok c) (l : List (Nat × Bytes)) :
    ∃ fp, appendSqueeze E F.header (F.impl E) (headPart E F init).length a p.2 { data := new } new.length
        (Z (headPart E F init ++ (p.1 ++ D)) F.junk l) = (.ok 0, fp) ∧
      fp.data = (grownFile E F init [(c, p.2 ++ new)] (F.header.last_chunk + new.length) (p.1 ++ (D ++ F.junk))).bytes E ∧
      fp.log = l ++ seqLog (headPart E F init).length (chunkWrites (F.impl E) c) ++
        [(0, (grownFile E F init [(c, p.2 ++ new)] (F.header.last_chunk + new.length) (p.1 ++ (D ++ F.junk))).header.bytes)] := by
  have hn : F.header.nchunks = init.length + 1 := by rw [hc.nchunks, hchunks]; simp
  obtain ⟨init0, p0, e1, e2, e3⟩ := hc.lengths
  have hp0 : p0 = p := by
    rw [hchunks] at e1
    have := (List.append_inj' e1 rfl).2
    simpa using this.symm
  subst hp0
  have hm0 : 0 ≤ F.header.max_app_chunks := hc.ok.2.2.2.2.2.2.1.1
  have hcs : 0 ≤ F.header.chunk_size := by rcases hc.sizes with h | h <;> omega
  generalize hG : grownFile E F init [(c, p0.2 ++ new)] (F.header.last_chunk + new.length) (p0.1 ++ (D ++ F.junk)) = G
  have hGh : ({ F.header with last_chunk := F.header.last_chunk + new.length } : BloscpackHeader) = G.header := by
    rw [← hG]; simp [grownFile]
  have hGok : G.header.OK := by
    rw [← hG]
    exact grownFile_header_ok hc.ok (by omega) hcs (by simp) (by simpa using hm0) (by omega) (by omega)
  obtain ⟨s1, s2⟩ := seekZero_wrote F.header (headRest E F init) (p0.1 ++ (D ++ F.junk)) l (chunkWrites (F.impl E) c)
    (headPart E F init) (headPart_eq E F init) G.header
  refine ⟨Z G.header.bytes (headRest E F init ++ ((chunkWrites (F.impl E) c).flatten ++
    (p0.1 ++ (D ++ F.junk)).drop (chunkWrites (F.impl E) c).flatten.length))
    (l ++ seqLog (headPart E F init).length (chunkWrites (F.impl E) c) ++ [(0, G.header.bytes)]), ?_, ?_, rfl⟩
  · unfold appendSqueeze squeezeIn
    rw [read_new, List.take_length,
      Proc.bind_of_ok (fpSeek_Z _ _ (headPart E F init) (p0.1 ++ (D ++ F.junk)) l _ (by simp) rfl),
      Proc.bind_of_ok (Proc.ofExcept_apply _ _ |>.trans (by rw [hcomp])), ← wrote_nil,
      Proc.bind_of_ok (writeCompressedChunk_wrote _ _ _ _ _ _), hGh,
      Proc.bind_of_ok (Proc.ofExcept_apply _ _ |>.trans (by rw [BloscpackHeader.encode_ok hGok])), List.nil_append,
      Proc.bind_of_ok s1, Proc.bind_of_ok s2]
    rfl
  · have hoff : G.offsets = F.offsets := by
      rw [← hG, hc.table ho]
      simp only [grownFile, hchunks, List.map_append, List.map_singleton, List.length_singleton]
      rw [positions_snoc_congr _ _ _ c p0.1]
      simp
    have hGi : G.impl E = F.impl E := by rw [← hG]; rfl
    have hGs : G.secBytes E = F.secBytes E := by rw [← hG]; rfl
    have hGc : G.chunks = init ++ [(c, p0.2 ++ new)] := by rw [← hG]; rfl
    have hGj : G.junk = (p0.1 ++ (D ++ F.junk)).drop (Spec.records (F.impl E).function [c]).length := by rw [← hG]; rfl
    rw [Z_data, File.bytes, File.front, File.body, hoff, hGi, hGs, hGc, hGj, headRest, chunkWrites_flatten]
    simp [records_append]

theorem encodeOffsets_fail {os : List Int} (h : ¬ ∀ o ∈ os, -2 ^ 63 ≤ o ∧ o ≤ 2 ^ 63 - 1) : ∃ e, encodeOffsets os = .error e := by
  cases he : encodeOffsets os with
  | error e => exact ⟨e, rfl⟩
  | ok raw => exact absurd ((encodeOffsets_iff _ _).1 he).1 h

/-- the pieces the new content is cut into -/
theorem append_items {v : Int} {data : Bytes} {k cs lc : Int} (hpos : data ≠ [])
    (h : calculateNchunks data.length (.int v) = .ok (k, cs, lc)) (A : Bytes) (lg : List (Nat × Bytes)) :
    ∃ ini tl, plainFPSource (Z A data lg) cs lc k = ⟨ini ++ [tl], none⟩ ∧ (ini.length : Int) = k - 1 ∧
      (∀ b ∈ ini, (b.length : Int) = v) ∧ (tl.length : Int) = lc ∧ (ini ++ [tl]).flatten = data ∧ 1 ≤ k ∧ 1 ≤ lc ∧ lc ≤ v := by
  obtain ⟨ini, tl, h1, h2, h3, h4, h5, h6, h7⟩ := calculate_items_at h A lg
  obtain ⟨c1, c2, -, c4, -, -, c6⟩ := C02_chunking_covers _ _ _ _ _ h
  have hl0 : (data.length : Int) ≠ 0 := by
    intro hz; exact hpos (List.eq_nil_of_length_eq_zero (by omega))
  obtain ⟨c7, v', hv', c8, c9, c10⟩ := c6 hl0
  have : v' = v := by
    rcases hv' with h | ⟨s, h, -⟩
    · cases h; rfl
    · cases h
  subst this
  refine ⟨ini, tl, h1, h2, ?_, h4, h5, h6, c7, by omega⟩
  intro b hb
  rw [h3 b hb]
  apply Classical.byContradiction
  intro hne
  have hlt : ¬ v' ≤ data.length := fun h => hne (c9 h)
  have := c10 1 (by omega)
  cases ini with
  | nil => cases hb
  | cons x xs => simp at h2; omega

theorem compress_all (L : E.Laws) {a : BloscArgs} {d c : Bytes} (hv : E.compress d a = .ok c) (ds : List Bytes)
    (hds : ∀ x ∈ ds, (x.length : Int) ≤ BLOSC_MAX_BUFFERSIZE) : ∀ x ∈ ds, ∃ y, E.compress x a = .ok y := by
  intro x hx
  exact L.compress_total x a (L.compress_reject _ _ _ hv).1 (hds x hx)

/-- what the second half of `append_fp` does when chunks must be added -/
theorem appendGrow_run (L : E.Laws) (hc : F.Located E) (hpl : (p.2.length : Int) ≤ F.header.chunk_size) (ho : F.header.offsets = true) (hchunks : F.chunks = init ++ [p])
    (D : Bytes) {a : BloscArgs} {new : Bytes} (hbig : ¬ (new.length : Int) ≤ F.header.chunk_size - p.2.length)
    (l : List (Nat × Bytes)) (r : Except Err Int) (fp : FP)
    (hrun : appendGrow E F.header (F.impl E) (Spec.positions (F.impl E).function (F.front E).length (F.chunks.map (·.1)))
      (32 + (F.secBytes E).length : Nat) (headPart E F init).length a p.2 { data := new } new.length
      (F.header.chunk_size - p.2.length) (Z (headPart E F init ++ (p.1 ++ D)) F.junk l) = (r, fp)) :
    (∃ e, r = .error e ∧ fp.data = headPart E F init ++ (p.1 ++ (D ++ F.junk)) ∧ fp.log = l ∧
      (calculateNchunks (new.length - (F.header.chunk_size - p.2.length)) (.int F.header.chunk_size) = .error e ∨
       ∃ k cs lc, calculateNchunks (new.length - (F.header.chunk_size - p.2.length)) (.int F.header.chunk_size) = .ok (k, cs, lc) ∧
        ((k > F.header.max_app_chunks ∧ e = .notEnoughSpace) ∨
         (k ≤ F.header.max_app_chunks ∧
          ((p.2 ++ new.take (F.header.chunk_size - p.2.length).toNat).length : Int) ≤ F.header.chunk_size ∧
          E.compress (p.2 ++ new.take (F.header.chunk_size - p.2.length).toNat) a = .error e)))) ∨
    ∃ (k cs lc : Int) (chs : List (Bytes × Bytes)) (q : Bytes × Bytes),
      calculateNchunks (new.length - (F.header.chunk_size - p.2.length)) (.int F.header.chunk_size) = .ok (k, cs, lc) ∧
      k ≤ F.header.max_app_chunks ∧ (chs.length : Int) = k ∧ 1 ≤ k ∧
      (∀ r ∈ chs ++ [q], E.compress r.2 a = .ok r.1) ∧ (∀ r ∈ chs, (r.2.length : Int) = F.header.chunk_size) ∧
      (q.2.length : Int) = lc ∧ 1 ≤ lc ∧ lc ≤ F.header.chunk_size ∧ ((chs ++ [q]).map (·.2)).flatten = p.2 ++ new ∧
      (((∀ o ∈ Spec.positions (F.impl E).function (F.front E).length ((init ++ (chs ++ [q])).map (·.1)), o < 2 ^ 63) ∧
        r = .ok k ∧ fp.data = (grownFile E F init (chs ++ [q]) lc (p.1 ++ (D ++ F.junk))).bytes E ∧
        fp.log = l ++ seqLog (headPart E F init).length (chunksWrites (F.impl E) ((chs ++ [q]).map (·.1))) ++
          [(0, (grownFile E F init (chs ++ [q]) lc (p.1 ++ (D ++ F.junk))).header.bytes),
           (32 + (F.secBytes E).length, Spec.int64s (Spec.positions (F.impl E).function (F.front E).length
              ((init ++ (chs ++ [q])).map (·.1))))]) ∨
       ((¬ ∀ o ∈ Spec.positions (F.impl E).function (F.front E).length ((init ++ (chs ++ [q])).map (·.1)), o < 2 ^ 63) ∧
        ∃ e, r = .error e ∧ 2 ^ 63 ≤ fp.data.length ∧
        fp.log = l ++ seqLog (headPart E F init).length (chunksWrites (F.impl E) ((chs ++ [q]).map (·.1))) ++
          [(0, (grownFile E F init (chs ++ [q]) lc (p.1 ++ (D ++ F.junk))).header.bytes)])) := by
  have hn : F.header.nchunks = init.length + 1 := by rw [hc.nchunks, hchunks]; simp
  have hm0 : 0 ≤ F.header.max_app_chunks := hc.ok.2.2.2.2.2.2.1.1
  have hcs : 0 ≤ F.header.chunk_size := by omega
  have hmaxB : F.header.chunk_size ≤ BLOSC_MAX_BUFFERSIZE := by
    have := hc.ok.2.2.2.1.2
    have : BLOSC_MAX_BUFFERSIZE = 2 ^ 31 - 17 := by decide
    omega
  obtain ⟨-, hi2, -⟩ := File.lookup hc.toPre
  generalize hb : (F.header.chunk_size - p.2.length) = btr at hrun hbig ⊢
  obtain ⟨b, rfl⟩ : ∃ b : Nat, btr = b := ⟨btr.toNat, by omega⟩
  simp only [Int.toNat_natCast]
  have hnew : ((new.drop b).length : Int) = new.length - b := by rw [List.length_drop]; omega
  have hdne : new.drop b ≠ [] := by
    intro h; have := congrArg List.length h; simp at this; omega
  unfold appendGrow growBy at hrun
  simp only [read_new] at hrun
  cases hcalc : calculateNchunks (new.length - b) (.int F.header.chunk_size) with
  | error e =>
    rw [hcalc, Proc.bind_of_error (Proc.ofExcept_apply _ _)] at hrun
    cases hrun
    exact .inl ⟨e, rfl, by simp, rfl, .inl rfl⟩
  | ok t =>
    obtain ⟨k, cs, lc⟩ := t
    rw [hcalc, Proc.bind_of_ok (Proc.ofExcept_apply _ _)] at hrun
    simp only at hrun
    by_cases hk : k > F.header.max_app_chunks
    · rw [Proc.bind_of_error (Proc.raiseIf_pos hk _ _)] at hrun
      cases hrun
      exact .inl ⟨_, rfl, by simp, rfl, .inr ⟨k, cs, lc, rfl, .inl ⟨hk, rfl⟩⟩⟩
    rw [Proc.bind_of_ok (Proc.raiseIf_neg hk _ _),
      Proc.bind_of_ok (fpSeek_Z _ _ (headPart E F init) (p.1 ++ (D ++ F.junk)) l _ (by simp) rfl)] at hrun
    cases hcomp : E.compress (p.2 ++ new.take b) a with
    | error e =>
      rw [hcomp, Proc.bind_of_error (Proc.ofExcept_apply _ _)] at hrun
      cases hrun
      refine .inl ⟨e, rfl, by simp, rfl, .inr ⟨k, cs, lc, rfl, .inr ⟨by omega, ?_, rfl⟩⟩⟩
      rw [List.length_append, List.length_take]; omega
    | ok c =>
      right
      rw [hcomp, Proc.bind_of_ok (Proc.ofExcept_apply _ _),
        ← wrote_nil (headPart E F init) (p.1 ++ (D ++ F.junk)) l, Proc.bind_of_ok (writeCompressedChunk_wrote _ _ _ _ _ _), List.nil_append] at hrun
      rw [← hnew] at hcalc
      obtain ⟨ini, tl, i1, i2, i3, i4, i5, i6, i7, i8⟩ := append_items hdne hcalc (new.take b) []
      rw [i1, repeatList_single] at hrun
      simp only at hrun
      -- the loop
      have hloop : ∃ chs : List (Bytes × Bytes), chs.map (·.2) = ini ++ [tl] ∧ (∀ p ∈ chs, E.compress p.2 a = .ok p.1) ∧
          withSink F.header (F.impl E) (List.replicate k.toNat (-1)) (appendLoop E a 0 (ini ++ [tl]))
            (wrote (headPart E F init) (p.1 ++ (D ++ F.junk)) l (chunkWrites (F.impl E) c)) =
          (.ok ((), Spec.positions (F.impl E).function ((headPart E F init).length + (c.length + ((F.impl E).function c).length))
            (chs.map (·.1))),
            wrote (headPart E F init) (p.1 ++ (D ++ F.junk)) l
              (chunkWrites (F.impl E) c ++ chunksWrites (F.impl E) (chs.map (·.1)))) := by
        unfold withSink
        rw [appendLoop_eq]
        have hw := packLoop_wrote (E := E) a (ini ++ [tl])
          (mkSink F.header (F.impl E) (wrote (headPart E F init) (p.1 ++ (D ++ F.junk)) l (chunkWrites (F.impl E) c)) 0
            (List.replicate k.toNat (-1))) hi2 rfl [] (List.replicate k.toNat (-1)) rfl (by intro _; simp; omega)
        rcases hw with ⟨chs, w1, w2, w3⟩ | ⟨chs, d, rest, e, w1, w2, w3, w4⟩
        · refine ⟨chs, w1, w2, ?_⟩
          have hlen : (chs.map (·.1)).length = k.toNat := by
            have := congrArg List.length w1
            simp at this ⊢; omega
          have w3' : packLoop E (compressedFPSink E) a 0 (ini ++ [tl])
              { fp := wrote (headPart E F init) (p.1 ++ (D ++ F.junk)) l (chunkWrites (F.impl E) c), header := F.header,
                impl := F.impl E, offset_storage := List.replicate k.toNat (-1) } = _ := w3
          rw [w3']
          have hst : ∀ s A R l bss cs, s.header.offsets = true → cs.length = k.toNat →
              (afterChunks s A R l bss [] (List.replicate k.toNat (-1)) cs).offset_storage =
                Spec.positions s.impl.function (A.length + bss.flatten.length) cs := by
            intro s A R l bss cs h1 h2
            simp [afterChunks, h1, h2]
          simp only
          rw [hst _ _ _ _ _ _ ho hlen, chunkWrites_flatten, List.length_append]
          rfl
        · exfalso
          obtain ⟨y, hy⟩ := compress_all L hcomp (ini ++ [tl]) (by
            intro x hx
            rcases List.mem_append.1 hx with h | h
            · rw [i3 x h]; exact hmaxB
            · simp at h; subst h; omega) d (by rw [← w1]; simp)
          rw [w3] at hy; cases hy
      obtain ⟨chs2, l1, l2, l3⟩ := hloop
      rw [Proc.bind_of_ok l3] at hrun
      simp only at hrun
      -- the new last chunks
      have hsp : ∃ mid q, chs2 = mid ++ [q] ∧ mid.map (·.2) = ini ∧ q.2 = tl := by
        rcases List.eq_nil_or_concat chs2 with rfl | ⟨mid, q, rfl⟩
        · simp at l1
        · rw [List.concat_eq_append, List.map_append, List.map_singleton] at l1
          obtain ⟨h1, h2⟩ := List.append_inj' l1 rfl
          exact ⟨mid, q, List.concat_eq_append, h1, by simpa using h2⟩
      obtain ⟨mid, q, rfl, m1, m2⟩ := hsp
      have hfirst : ((p.2 ++ new.take b).length : Int) = F.header.chunk_size := by
        rw [List.length_append, List.length_take]; omega
      have hmid : (mid.length : Int) = k - 1 := by rw [← i2, ← m1, List.length_map]
      have hchs : (chunkWrites (F.impl E) c ++ chunksWrites (F.impl E) ((mid ++ [q]).map (·.1))) =
          chunksWrites (F.impl E) ((((c, p.2 ++ new.take b) :: mid) ++ [q]).map (·.1)) := by
        simp [chunksWrites]
      have hpos : Spec.positions (F.impl E).function (F.front E).length (F.chunks.map (·.1)) ++
          Spec.positions (F.impl E).function ((headPart E F init).length + (c.length + ((F.impl E).function c).length))
            ((mid ++ [q]).map (·.1)) =
          Spec.positions (F.impl E).function (F.front E).length ((init ++ (((c, p.2 ++ new.take b) :: mid) ++ [q])).map (·.1)) := by
        have hm : (init ++ (((c, p.2 ++ new.take b) :: mid) ++ [q])).map (·.1) =
            (init.map (·.1) ++ [c]) ++ (mid ++ [q]).map (·.1) := by simp
        rw [hm, positions_append _ _ (init.map (·.1) ++ [c]), hchunks, List.map_append, List.map_singleton,
          positions_snoc_congr _ _ _ p.1 c]
        congr 2
        simp [headPart, records_append, Nat.add_assoc]
      refine ⟨k, cs, lc, (c, p.2 ++ new.take b) :: mid, q, rfl, by omega, by simp; omega, i6, ?_, ?_, by rw [m2]; exact i4,
        i7, i8, ?_, ?_⟩
      · intro r hr
        rcases List.mem_cons.1 hr with rfl | hr
        · exact hcomp
        · exact l2 r hr
      · intro r hr
        rcases List.mem_cons.1 hr with rfl | hr
        · exact hfirst
        · exact i3 r.2 (by rw [← m1]; exact List.mem_map_of_mem hr)
      · rw [List.cons_append, List.map_cons, List.flatten_cons, l1, i5, List.append_assoc, List.take_append_drop]
      · rw [hchs, hpos] at hrun
        generalize hC : ((c, p.2 ++ new.take b) :: mid) ++ [q] = C at hrun ⊢
        have hCl : (C.length : Int) = k + 1 := by rw [← hC]; simp; omega
        have hCne : C ≠ [] := by rw [← hC]; simp
        generalize hG : grownFile E F init C lc (p.1 ++ (D ++ F.junk)) = G
        have hGh : ({ F.header with last_chunk := lc, nchunks := F.header.nchunks + k, max_app_chunks := F.header.max_app_chunks - k } : BloscpackHeader) = G.header := by
          rw [← hG]; simp only [grownFile, hCl]
          congr 1 <;> omega
        have hGok : G.header.OK := by
          rw [← hG]
          exact grownFile_header_ok hc.ok (by omega) hcs hCne (by omega) (by omega) (by omega)
        have hgl : (grownFile E F init C lc (p.1 ++ (D ++ F.junk))).offsets.length = offsetsLen F.header :=
          grownFile_offsets_length hn ho hCne (by omega)
        obtain ⟨s1, s2⟩ := seekZero_wrote F.header (headRest E F init) (p.1 ++ (D ++ F.junk)) l
          (chunksWrites (F.impl E) (C.map (·.1))) (headPart E F init) (headPart_eq E F init) G.header
        rw [hGh, Proc.bind_of_ok (Proc.ofExcept_apply _ _ |>.trans (by rw [BloscpackHeader.encode_ok hGok])),
          Proc.bind_of_ok s1, Proc.bind_of_ok s2] at hrun
        generalize hrest : (Spec.records (F.impl E).function (init.map (·.1)) ++ ((chunksWrites (F.impl E) (C.map (·.1))).flatten ++
            (p.1 ++ (D ++ F.junk)).drop (chunksWrites (F.impl E) (C.map (·.1))).flatten.length)) = rest
        have e4 : headRest E F init ++ ((chunksWrites (F.impl E) (C.map (·.1))).flatten ++
            (p.1 ++ (D ++ F.junk)).drop (chunksWrites (F.impl E) (C.map (·.1))).flatten.length) =
            F.secBytes E ++ (F.offsets ++ rest) := by
          rw [← hrest]; simp [headRest]
        rw [e4, Proc.bind_of_ok (fpSeek_Z G.header.bytes _ (G.header.bytes ++ F.secBytes E) (F.offsets ++ rest) _ _ (by simp)
          (by rw [List.length_append, BloscpackHeader.bytes_length]))] at hrun
        by_cases hreach : ∀ o ∈ Spec.positions (F.impl E).function (F.front E).length ((init ++ C).map (·.1)), o < 2 ^ 63
        · left
          have henc : encodeOffsets (Spec.positions (F.impl E).function (F.front E).length ((init ++ C).map (·.1))) =
              .ok (Spec.int64s (Spec.positions (F.impl E).function (F.front E).length ((init ++ C).map (·.1)))) := by
            rw [encodeOffsets_iff]
            refine ⟨?_, rfl⟩
            intro o ho2
            have h1 := (positions_le_records _ _ _ o ho2).1
            have h2 := hreach o ho2
            omega
          generalize hraw : Spec.int64s (Spec.positions (F.impl E).function (F.front E).length ((init ++ C).map (·.1))) = raw at henc
          have hw : writeOffsets (Spec.positions (F.impl E).function (F.front E).length ((init ++ C).map (·.1)))
              (Z (G.header.bytes ++ F.secBytes E) (F.offsets ++ rest) (l ++ seqLog (headPart E F init).length
                (chunksWrites (F.impl E) (C.map (·.1))) ++ [(0, G.header.bytes)])) =
              (.ok (), Z (G.header.bytes ++ F.secBytes E ++ raw) ((F.offsets ++ rest).drop raw.length) (l ++ seqLog (headPart E F init).length
                (chunksWrites (F.impl E) (C.map (·.1))) ++ [(0, G.header.bytes)] ++ [((G.header.bytes ++ F.secBytes E).length, raw)])) := by
            unfold writeOffsets
            rw [Proc.bind_of_ok (Proc.ofExcept_apply _ _ |>.trans (by rw [henc])), fpWrite_Z]
          rw [Proc.bind_of_ok hw] at hrun
          have hr : (Except.ok k, Z (G.header.bytes ++ F.secBytes E ++ raw) ((F.offsets ++ rest).drop raw.length) (l ++ seqLog (headPart E F init).length
                (chunksWrites (F.impl E) (C.map (·.1))) ++ [(0, G.header.bytes)] ++ [((G.header.bytes ++ F.secBytes E).length, raw)])) = (r, fp) := hrun
          simp only [Prod.mk.injEq] at hr
          obtain ⟨rfl, rfl⟩ := hr
          refine ⟨hreach, rfl, ?_, ?_⟩
          · have hrawl : raw.length = 8 * (F.header.nchunks.toNat + k.toNat) := by
              rw [← hraw, int64s_length, positions_length, List.length_map, List.length_append]
              omega
            have hdrop : (F.offsets ++ rest).drop raw.length =
                Spec.int64s (List.replicate (F.header.max_app_chunks - k).toNat (-1)) ++ rest := by
              have hsplit : F.header.max_app_chunks.toNat = k.toNat + (F.header.max_app_chunks - k).toNat := by omega
              rw [hc.table ho, int64s_append, hsplit, ← List.replicate_append_replicate, int64s_append, ← List.append_assoc,
                List.append_assoc]
              apply List.drop_left'
              rw [List.length_append, int64s_length, int64s_length, positions_length, List.length_map, List.length_replicate, hrawl,
                hchunks, List.length_append]
              simp; omega
            have hGo : G.offsets = raw ++ Spec.int64s (List.replicate (F.header.max_app_chunks - k).toNat (-1)) := by
              rw [← hraw, ← hG, ← int64s_append]
              simp only [grownFile]
              rw [show F.header.max_app_chunks - ((C.length : Int) - 1) = F.header.max_app_chunks - k by omega]
            have hGi : G.impl E = F.impl E := by rw [← hG]; rfl
            have hGs : G.secBytes E = F.secBytes E := by rw [← hG]; rfl
            have hGc : G.chunks = init ++ C := by rw [← hG]; rfl
            have hGj : G.junk = (p.1 ++ (D ++ F.junk)).drop (Spec.records (F.impl E).function (C.map (·.1))).length := by
              rw [← hG]; rfl
            rw [Z_data, hdrop, File.bytes, File.front, File.body, hGo, hGi, hGs, hGc, hGj, ← hrest, chunksWrites_flatten]
            simp [records_append]
          · rw [Z_log, List.length_append, BloscpackHeader.bytes_length]
            simp
        · right
          refine ⟨hreach, ?_⟩
          obtain ⟨e, he⟩ := encodeOffsets_fail (os := Spec.positions (F.impl E).function (F.front E).length ((init ++ C).map (·.1)))
            (fun h => hreach (fun o ho2 => by have := (h o ho2).2; omega))
          have hw : writeOffsets (Spec.positions (F.impl E).function (F.front E).length ((init ++ C).map (·.1)))
              (Z (G.header.bytes ++ F.secBytes E) (F.offsets ++ rest) (l ++ seqLog (headPart E F init).length
                (chunksWrites (F.impl E) (C.map (·.1))) ++ [(0, G.header.bytes)])) =
              (.error e, (Z (G.header.bytes ++ F.secBytes E) (F.offsets ++ rest) (l ++ seqLog (headPart E F init).length
                (chunksWrites (F.impl E) (C.map (·.1))) ++ [(0, G.header.bytes)]))) := by
            unfold writeOffsets
            rw [Proc.bind_of_error (Proc.ofExcept_apply _ _ |>.trans (by rw [he]))]
          rw [Proc.bind_of_error hw] at hrun
          simp only [Prod.mk.injEq] at hrun
          obtain ⟨rfl, rfl⟩ := hrun
          refine ⟨e, rfl, ?_, rfl⟩
          simp only [Classical.not_forall, Int.not_lt] at hreach
          obtain ⟨o, ho2, ho3⟩ := hreach
          have h1 := (positions_le_records _ _ _ o ho2).2
          have h2 : (F.front E).length = (G.header.bytes ++ F.secBytes E).length + F.offsets.length := by
            rw [File.front_length hc.toPre, hc.offsets_len, List.length_append, BloscpackHeader.bytes_length]
          have h3 : (Spec.records (F.impl E).function ((init ++ C).map (·.1))).length ≤ rest.length := by
            rw [← hrest, List.map_append, records_append, chunksWrites_flatten]
            simp only [List.length_append]; omega
          rw [Z_data]
          simp only [List.length_append] at h2 ⊢
          omega

/-- how many chunks an append of `n` bytes adds to a file whose last chunk has `ultimo` bytes -/
def AppendCount (chunk_size : Int) (ultimo n : Nat) (k : Int) : Prop :=
  ((n : Int) ≤ chunk_size - ultimo ∧ k = 0) ∨
  (¬ (n : Int) ≤ chunk_size - ultimo ∧ ∃ cs lc, calculateNchunks (n - (chunk_size - ultimo)) (.int chunk_size) = .ok (k, cs, lc))

/-- why an append is refused -/
def Refusal (E : Env μ) (F : File μ) (p : Bytes × Bytes) (new : Bytes) (a : BloscArgs) (e : Err) : Prop :=
  (¬ (new.length : Int) ≤ F.header.chunk_size - p.2.length ∧
    calculateNchunks (new.length - (F.header.chunk_size - p.2.length)) (.int F.header.chunk_size) = .error e) ∨
  (∃ k, AppendCount F.header.chunk_size p.2.length new.length k ∧
    ((k > F.header.max_app_chunks ∧ e = .notEnoughSpace) ∨
     (k ≤ F.header.max_app_chunks ∧ ∃ t, ((p.2 ++ new.take t).length : Int) ≤ F.header.chunk_size ∧
        E.compress (p.2 ++ new.take t) a = .error e ∧ p.2 ++ new.take t = (p.2 ++ new).take F.header.chunk_size.toNat)))

/-- the new last chunks of a successful append -/
structure Grown (E : Env μ) (F : File μ) (p : Bytes × Bytes) (new : Bytes) (a : BloscArgs)
    (chs : List (Bytes × Bytes)) (q : Bytes × Bytes) (k : Int) : Prop where
  count : AppendCount F.header.chunk_size p.2.length new.length k
  space : k ≤ F.header.max_app_chunks
  number : (chs.length : Int) = k
  comp : ∀ r ∈ chs ++ [q], E.compress r.2 a = .ok r.1
  full : ∀ r ∈ chs, (r.2.length : Int) = F.header.chunk_size
  last_le : (q.2.length : Int) ≤ F.header.chunk_size
  nonempty : 1 ≤ q.2.length ∨ (chs = [] ∧ F.header.nchunks = 1 ∧ F.header.chunk_size = 0 ∧ new = [])
  content : ((chs ++ [q]).map (·.2)).flatten = p.2 ++ new

/-- the new content fits into the last chunk -/
theorem squeeze_grown (hc : F.Conforming E) (hp : (p.2.length : Int) = F.header.last_chunk) {new c : Bytes} {a : BloscArgs}
    (hfit : (new.length : Int) ≤ F.header.chunk_size - p.2.length) (hcomp : E.compress (p.2 ++ new) a = .ok c) :
    Grown E F p new a [] (c, p.2 ++ new) 0 where
  count := .inl ⟨hfit, rfl⟩
  space := hc.ok.2.2.2.2.2.2.1.1
  number := rfl
  comp := by simpa using hcomp
  full := by simp
  last_le := by show ((p.2 ++ new).length : Int) ≤ _; rw [List.length_append]; omega
  nonempty := by
    rcases hc.sizes with h | ⟨g1, g2, g3⟩
    · left; show 1 ≤ (p.2 ++ new).length; rw [List.length_append]; omega
    · right; refine ⟨rfl, g1, g2, ?_⟩
      exact List.eq_nil_of_length_eq_zero (by omega)
  content := by simp

theorem squeeze_reach (hc : F.Conforming E) (ho : F.header.offsets = true) (hch : F.chunks = init ++ [p]) (c d : Bytes) :
    ∀ o ∈ Spec.positions (F.impl E).function (F.front E).length ((init ++ (([] : List (Bytes × Bytes)) ++ [(c, d)])).map (·.1)), o < 2 ^ 63 := by
  intro o ho2
  have := hc.reach ho
  rw [hch, List.map_append, List.map_singleton, positions_snoc_congr _ _ _ p.1 c] at this
  exact this o (by simpa using ho2)

/-- the log of a successful append -/
def grownLog (E : Env μ) (F : File μ) (init chs : List (Bytes × Bytes)) (q : Bytes × Bytes) (tail : Bytes) : List (Nat × Bytes) :=
  seqLog (headPart E F init).length (chunksWrites (F.impl E) ((chs ++ [q]).map (·.1))) ++
    ((0, (grownFile E F init (chs ++ [q]) q.2.length tail).header.bytes) ::
      (if chs = [] then [] else [(32 + (F.secBytes E).length, Spec.int64s (Spec.positions (F.impl E).function (F.front E).length
              ((init ++ (chs ++ [q])).map (·.1))))]))

/-- what `append_fp` does to a conforming file whose last digest was replaced by `D` -/
theorem append_run (L : E.Laws) (hc : F.Conforming E) (ho : F.header.offsets = true) (hnn : F.NoNull)
    (hch : F.chunks = init ++ [p]) (D : Bytes) (hD : D.length = (F.impl E).size) (new : Bytes) (args : AppendArgs)
    (l : List (Nat × Bytes)) (r : Except Err Int) (fp : FP)
    (hrun : appendFp E { data := new } new.length args (Z [] (headPart E F init ++ (p.1 ++ (D ++ F.junk))) l) = (r, fp)) :
    (∃ e, r = .error e ∧ fp.data = headPart E F init ++ (p.1 ++ (D ++ F.junk)) ∧ fp.log = l ∧
      Refusal E F p new (args.filled F.header) e) ∨
    ∃ chs q k, Grown E F p new (args.filled F.header) chs q k ∧
      (((∀ o ∈ Spec.positions (F.impl E).function (F.front E).length ((init ++ (chs ++ [q])).map (·.1)), o < 2 ^ 63) ∧
        r = .ok k ∧ fp.data = (grownFile E F init (chs ++ [q]) q.2.length (p.1 ++ (D ++ F.junk))).bytes E ∧
        fp.log = l ++ grownLog E F init chs q (p.1 ++ (D ++ F.junk))) ∨
       ((¬ ∀ o ∈ Spec.positions (F.impl E).function (F.front E).length ((init ++ (chs ++ [q])).map (·.1)), o < 2 ^ 63) ∧
        (∃ e, r = .error e) ∧ 2 ^ 63 ≤ fp.data.length ∧ ∃ rest, l ++ grownLog E F init chs q (p.1 ++ (D ++ F.junk)) = fp.log ++ rest)) := by
  obtain ⟨init0, p0, e1, e2, e3⟩ := hc.lengths
  have hp0 : p0 = p := by
    rw [hch] at e1
    have := (List.append_inj' e1 rfl).2
    simpa using this.symm
  subst hp0
  rw [appendFp_start L hc ho hnn hch D hD] at hrun
  split at hrun
  · rename_i hfit
    cases hcomp : E.compress (p0.2 ++ new) (args.filled F.header) with
    | error e =>
      rw [appendSqueeze_error _ _ _ _ (by rw [List.take_length]; exact hcomp)] at hrun
      cases hrun
      refine .inl ⟨e, rfl, by simp, rfl, .inr ⟨0, .inl ⟨hfit, rfl⟩, .inr ⟨hc.ok.2.2.2.2.2.2.1.1, new.length, ?_⟩⟩⟩
      rw [List.take_length]
      exact ⟨by rw [List.length_append]; omega, hcomp, (List.take_of_length_le (by rw [List.length_append]; omega)).symm⟩
    | ok c =>
      obtain ⟨fp', h1, h2, h3⟩ := appendSqueeze_ok hc ho hch D hfit hcomp l
      rw [h1] at hrun
      cases hrun
      right
      have hlast : F.header.last_chunk + (new.length : Int) = ((p0.2 ++ new).length : Int) := by
        rw [List.length_append, ← e3]; simp
      refine ⟨[], (c, p0.2 ++ new), 0, ?_, .inl ⟨?_, rfl, ?_, ?_⟩⟩
      · exact squeeze_grown hc e3 hfit hcomp
      · exact squeeze_reach hc ho hch c _
      · rw [h2, hlast]; rfl
      · rw [h3, hlast]; simp [grownLog, chunksWrites]
  · rename_i hbig
    rcases appendGrow_run L hc.located (by rcases hc.sizes with h | h <;> omega) ho hch D hbig l r fp hrun with ⟨e, rfl, g1, g2, g3⟩ | ⟨k, cs, lc, chs, q, g1, g2, g3, g4, g5, g6, g7, g8, g9, g10, g11⟩
    · refine .inl ⟨e, rfl, g1, g2, ?_⟩
      rcases g3 with h | ⟨k, cs, lc, h1, h2 | h2⟩
      · exact .inl ⟨hbig, h⟩
      · exact .inr ⟨k, .inr ⟨hbig, cs, lc, h1⟩, .inl h2⟩
      · refine .inr ⟨k, .inr ⟨hbig, cs, lc, h1⟩, .inr ⟨h2.1, _, h2.2.1, h2.2.2, ?_⟩⟩
        rw [List.take_append, List.take_of_length_le (l := p0.2) (by rcases hc.sizes with h | h <;> omega)]
        congr 2
        omega
    · right
      have hne : chs ≠ [] := by rintro rfl; simp at g3; omega
      refine ⟨chs, q, k, ?_, ?_⟩
      · exact {
          count := .inr ⟨hbig, cs, lc, g1⟩
          space := g2
          number := g3
          comp := g5
          full := g6
          last_le := by rw [g7]; exact g9
          nonempty := by left; omega
          content := g10 }
      · rw [← g7] at g11
        rcases g11 with ⟨h1, h2, h3, h4⟩ | ⟨h1, ⟨e, h2, hbg, h3⟩⟩
        · refine .inl ⟨h1, h2, h3, ?_⟩
          rw [h4]; simp [grownLog, hne]
        · refine .inr ⟨h1, ⟨e, h2⟩, hbg, ?_⟩
          refine ⟨[(32 + (F.secBytes E).length, Spec.int64s (Spec.positions (F.impl E).function (F.front E).length
            ((init ++ (chs ++ [q])).map (·.1))))], ?_⟩
          rw [h3]; simp [grownLog, hne]

/-- after a successful append the file conforms, holds the old data followed by the new bytes, and the same metadata -/
theorem Grown.conforming (L : E.Laws) (hc : F.Conforming E) (ho : F.header.offsets = true) (hch : F.chunks = init ++ [p])
    {new : Bytes} {a : BloscArgs} {chs : List (Bytes × Bytes)} {q : Bytes × Bytes} {k : Int} (hg : Grown E F p new a chs q k)
    (hreach : ∀ o ∈ Spec.positions (F.impl E).function (F.front E).length ((init ++ (chs ++ [q])).map (·.1)), o < 2 ^ 63)
    (tail : Bytes) : (grownFile E F init (chs ++ [q]) q.2.length tail).Conforming E := by
  refine grownFile_conforming hc ho hch rfl ?_ ?_ hg.full rfl hg.last_le ?_ hreach
  · have := hg.space; have := hg.number; simp; omega
  · intro r hr; exact L.decompress_compress _ _ _ (hg.comp r hr)
  · rcases hg.nonempty with h | ⟨h1, h2, h3, h4⟩
    · left; omega
    · right; have := hg.last_le; exact ⟨h1, h2, h3, by omega⟩

theorem Grown.data (hch : F.chunks = init ++ [p]) {new : Bytes} {a : BloscArgs} {chs : List (Bytes × Bytes)} {q : Bytes × Bytes} {k : Int}
    (hg : Grown E F p new a chs q k) (tail : Bytes) :
    (grownFile E F init (chs ++ [q]) q.2.length tail).data = F.data ++ new := by
  show ((init ++ (chs ++ [q])).map (·.2)).flatten = _
  rw [List.map_append, List.flatten_append, hg.content, File.data, hch]
  simp

end

end Bloscpack
