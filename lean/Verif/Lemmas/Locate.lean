import Verif.Lemmas.Writer
import Verif.Spec.Observe
/-
The offsets table of a conforming file locates its chunks.
-/
namespace Bloscpack
variable {μ : Type}

theorem flatten_slice {c : Nat} {tl : Bytes} (htl : tl.length ≤ c) (init : List Bytes) (h : ∀ b ∈ init, b.length = c)
    (i : Nat) (hi : i < (init ++ [tl]).length) :
    (init ++ [tl])[i] = slice (init ++ [tl]).flatten (i * c) ((i + 1) * c) := by
  induction init generalizing i with
  | nil =>
    have : i = 0 := by simpa using hi
    subst this
    simp [slice]
    exact (List.take_of_length_le htl).symm
  | cons b bs ih =>
    have hb := h b List.mem_cons_self
    cases i with
    | zero =>
      simp only [List.cons_append, List.getElem_cons_zero, List.flatten_cons]
      rw [Nat.zero_mul, Nat.zero_add, Nat.one_mul, slice_append_left _ _ _ _ (by omega), slice_all _ _ (by omega)]
    | succ i =>
      simp only [List.cons_append, List.getElem_cons_succ, List.flatten_cons]
      rw [slice_append_right _ _ _ _ (by rw [Nat.succ_mul]; omega), ih (fun x hx => h x (List.mem_cons_of_mem _ hx)) i (by simpa using hi)]
      congr 1 <;> simp only [Nat.succ_mul, hb] <;> omega

theorem positions_getElem (f : Bytes → Bytes) (s : Nat) (cs : List Bytes) (i : Nat) (hi : i < cs.length) :
    (Spec.positions f s cs)[i]'(by rw [positions_length]; exact hi) = ((s + (Spec.records f (cs.take i)).length : Nat) : Int) := by
  induction cs generalizing s i with
  | nil => simp at hi
  | cons c cs ih =>
    cases i with
    | zero => simp [Spec.positions]
    | succ i =>
      simp only [Spec.positions, List.getElem_cons_succ, List.take_succ_cons, records_cons, List.length_append]
      rw [ih _ i (by simpa using hi)]
      omega

/-- the plain chunks are the `chunk_size` slices of the data -/
theorem File.Conforming.chunk_slice {E : Env μ} {F : File μ} (hc : F.Conforming E) (i : Nat) (hi : i < F.chunks.length) :
    F.chunks[i].2 = slice F.data (i * F.header.chunk_size.toNat) ((i + 1) * F.header.chunk_size.toNat) := by
  obtain ⟨init, p, h1, h2, h3⟩ := hc.lengths
  have hs := hc.sizes
  have hmap : F.chunks.map (·.2) = init.map (·.2) ++ [p.2] := by rw [h1]; simp
  have hp : p.2.length ≤ F.header.chunk_size.toNat := by omega
  have hin : ∀ b ∈ init.map (·.2), b.length = F.header.chunk_size.toNat := by
    intro b hb
    obtain ⟨q, hq, rfl⟩ := List.mem_map.1 hb
    have := h2 q hq; omega
  have := flatten_slice hp _ hin i (by rw [← hmap]; simpa using hi)
  unfold File.data
  rw [hmap, ← this]
  simp [← hmap]

/-- the number of bytes of data -/
theorem File.Conforming.data_length {E : Env μ} {F : File μ} (hc : F.Conforming E) :
    (F.data.length : Int) = F.header.chunk_size * (F.header.nchunks - 1) + F.header.last_chunk := by
  obtain ⟨init, p, h1, h2, h3⟩ := hc.lengths
  have hn := hc.nchunks
  have : ∀ l : List (Bytes × Bytes), (∀ q ∈ l, (q.2.length : Int) = F.header.chunk_size) →
      ((l.map (·.2)).flatten.length : Int) = F.header.chunk_size * l.length := by
    intro l
    induction l with
    | nil => intro _; simp
    | cons q qs ih =>
      intro h
      have e1 := h q List.mem_cons_self
      have e2 := ih (fun x hx => h x (List.mem_cons_of_mem _ hx))
      simp only [List.map_cons, List.flatten_cons, List.length_append, List.length_cons, Int.natCast_add, e1, e2]
      rw [show ((1 : Nat) : Int) = 1 from rfl, Int.mul_add]; omega
  have := this init h2
  unfold File.data
  rw [h1, hn, h1]
  simp only [List.map_append, List.flatten_append, List.length_append, List.map_singleton, List.flatten_singleton,
    List.length_singleton, Int.natCast_add, this, h3]
  rw [show ((init.length : Int) + (1 : Nat) - 1) = init.length by omega]

theorem File.Conforming.n_pos {E : Env μ} {F : File μ} (hc : F.Conforming E) : 1 ≤ F.header.nchunks := by
  obtain ⟨init, p, h1, -⟩ := hc.lengths
  rw [hc.nchunks, h1]; simp; omega

/-- the offsets decoded from a conforming file are the positions of its chunks -/
theorem File.Located.decode_table {E : Env μ} {F : File μ} (hc : F.Located E) (ho : F.header.offsets = true) :
    decodeOffsets F.offsets F.header.nchunks.toNat =
      .ok (Spec.positions (F.impl E).function (F.front E).length (F.chunks.map (·.1))) := by
  have hlen : F.header.nchunks.toNat = (Spec.positions (F.impl E).function (F.front E).length (F.chunks.map (·.1))).length := by
    rw [positions_length, List.length_map, hc.nchunks]; omega
  rw [hc.table ho, int64s_append, hlen]
  refine decodeOffsets_int64s _ ?_ _
  intro o h
  have h1 := hc.reach ho o h
  obtain ⟨i, hi, rfl⟩ := List.getElem_of_mem h
  rw [positions_getElem _ _ _ i (by rw [positions_length] at hi; exact hi)] at h1 ⊢
  omega

theorem File.Conforming.decode_table {E : Env μ} {F : File μ} (hc : F.Conforming E) (ho : F.header.offsets = true) :
    decodeOffsets F.offsets F.header.nchunks.toNat =
      .ok (Spec.positions (F.impl E).function (F.front E).length (F.chunks.map (·.1))) :=
  hc.located.decode_table ho

theorem File.Conforming.readBeginning {E : Env μ} (L : E.Laws) {F : File μ} (hc : F.Conforming E) (ho : F.header.offsets = true)
    (l) : readBeginning E (Z [] (F.bytes E) l) =
      (.ok (F.header, F.metadata, F.sec.map (·.header),
        Spec.positions (F.impl E).function (F.front E).length (F.chunks.map (·.1))), Z (F.front E) (F.body E ++ F.junk) l) := by
  obtain ⟨os, h1, h2, -⟩ := readBeginning_file L hc.toPre (F.body E ++ F.junk) l
  have := h2 ho
  rw [hc.decode_table ho] at this
  cases this
  exact h1

/-- reading a chunk at its position -/
theorem File.Pre.read_at {E : Env μ} (L : E.Laws) {F : File μ} (hv : F.Pre E) (i : Nat) (hi : i < F.chunks.length) (l) :
    ∃ bh s, readCompressedChunk (F.impl E)
        { data := F.bytes E, pos := (F.front E).length + (Spec.records (F.impl E).function ((F.chunks.map (·.1)).take i)).length, log := l } =
      (.ok (F.chunks[i].1, bh, readDigest (F.impl E) F.chunks[i].1), s) := by
  obtain ⟨-, hl2, -⟩ := File.lookup hv
  have hsplit : F.chunks.map (·.1) = (F.chunks.map (·.1)).take i ++ F.chunks[i].1 :: (F.chunks.map (·.1)).drop (i + 1) := by
    have := List.getElem_cons_drop (as := F.chunks.map (·.1)) (i := i) (by simpa using hi)
    rw [List.getElem_map] at this
    rw [this, List.take_append_drop]
  have hb : F.bytes E = (F.front E ++ Spec.records (F.impl E).function ((F.chunks.map (·.1)).take i)) ++
      (F.chunks[i].1 ++ (F.impl E).function F.chunks[i].1 ++
        (Spec.records (F.impl E).function ((F.chunks.map (·.1)).drop (i + 1)) ++ F.junk)) := by
    unfold File.bytes File.body
    conv => lhs; rw [hsplit]
    rw [records_append, records_cons]
    simp [List.append_assoc]
  have hpos : (F.front E).length + (Spec.records (F.impl E).function ((F.chunks.map (·.1)).take i)).length =
      (F.front E ++ Spec.records (F.impl E).function ((F.chunks.map (·.1)).take i)).length := by simp
  rw [hb, hpos]
  obtain ⟨bh, -, h⟩ := readChunk_exact L hl2 (F.front E ++ Spec.records (F.impl E).function ((F.chunks.map (·.1)).take i)) F.chunks[i].1 (Spec.records (F.impl E).function ((F.chunks.map (·.1)).drop (i + 1)) ++ F.junk) l
    (framed_of_decompress L (hv.chunks_ok _ (List.getElem_mem hi)))
  exact ⟨bh, _, h⟩

theorem slice_tail {α} (X Y : List α) (n : Nat) (hn : n = Y.length) : slice (X ++ Y) ((X ++ Y).length - n) (X ++ Y).length = Y := by
  subst hn
  rw [slice_append_right _ _ _ _ (by simp), slice]
  simp

theorem int64s_minus_one (n : Nat) : Spec.int64s (List.replicate n (-1)) = List.replicate (8 * n) 255 := by
  have h1 : Spec.leBytes 8 (-1) = List.replicate 8 255 := by decide +kernel
  rw [int64s_replicate, h1]
  induction n with
  | zero => rfl
  | succ n ih =>
    rw [List.replicate_succ, List.flatten_cons, ih, List.replicate_append_replicate]
    congr 1; omega

theorem File.Conforming.offsets_exact {E : Env μ} (L : E.Laws) {F : File μ} (hc : F.Conforming E)
    (ho : F.header.offsets = true) : Spec.OffsetsExact E (F.bytes E) F.data := by
  have hn := hc.n_pos
  have hlen : (Spec.positions (F.impl E).function (F.front E).length (F.chunks.map (·.1))).length = F.chunks.length := by
    rw [positions_length, List.length_map]
  have hnch := hc.nchunks
  refine ⟨_, _, _, _, _, _, hc.readBeginning L ho [], (File.lookup hc.toPre).1, ?_, ?_, ?_, ?_, ?_, ?_⟩
  · rw [hlen, hnch]
  · omega
  · intro i hi
    have hi' : i < F.chunks.length := by omega
    rw [positions_getElem _ _ _ i (by simpa using hi')]
    refine ⟨by omega, ?_⟩
    obtain ⟨bh, s, h1⟩ := hc.toPre.read_at L i hi' []
    refine ⟨_, bh, _, s, h1, rfl, ?_⟩
    rw [hc.chunks_ok _ (List.getElem_mem hi'), hc.chunk_slice i hi']
  · rw [List.getElem?_eq_getElem (by omega), positions_getElem _ _ _ 0 (by simp; omega)]
    simp
  · show _ ≤ (F.front E).length
    unfold File.front
    rw [List.length_append, List.length_append, hc.offsets_len, offsetsLen, if_pos ho]
    omega
  · have hfr : F.front E = (F.header.bytes ++ F.secBytes E ++ Spec.int64s (Spec.positions (F.impl E).function (F.front E).length (F.chunks.map (·.1)))) ++
        List.replicate (8 * F.header.max_app_chunks.toNat) 255 := by
      conv => lhs; unfold File.front
      rw [hc.table ho, int64s_append, int64s_minus_one]
      simp
    show slice (F.bytes E) ((F.front E).length - _) (F.front E).length = _
    unfold File.bytes
    rw [slice_append_left _ _ _ _ (Nat.le_refl _)]
    generalize F.header.bytes ++ F.secBytes E ++ Spec.int64s (Spec.positions (F.impl E).function (F.front E).length (F.chunks.map (·.1))) = X at hfr
    rw [hfr]
    exact slice_tail X _ _ (by simp)

end Bloscpack
