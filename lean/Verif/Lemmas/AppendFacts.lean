import Verif.Lemmas.Append
import Verif.Lemmas.ReadOnly
import Verif.Props.Args
/-
Consequences of the description of `append_fp` in `Verif.Lemmas.Append`.
-/
namespace Bloscpack
variable {μ : Type}

theorem euclid_unique {c a b l m : Int} (hl : 1 ≤ l ∧ l ≤ c) (hm : 1 ≤ m ∧ m ≤ c) (h : c * a + l = c * b + m) :
    a = b ∧ l = m := by
  have key : ∀ x y : Int, x < y → c * x + c ≤ c * y := by
    intro x y hxy
    have := Int.mul_le_mul_of_nonneg_left (show x + 1 ≤ y by omega) (show 0 ≤ c by omega)
    rw [Int.mul_add] at this
    omega
  rcases Int.lt_trichotomy a b with h1 | h1 | h1
  · have := key a b h1; omega
  · subst h1; exact ⟨rfl, by omega⟩
  · have := key b a h1; omega

section
variable {E : Env μ} {F : File μ}

/-- the header of a conforming file describes the chunking of its data with its chunk size -/
theorem File.Conforming.chunking (hc : F.Conforming E) : ∃ c, calculateNchunks F.data.length (.int F.header.chunk_size) =
    .ok (F.header.nchunks, c, F.header.last_chunk) ∧ (F.header.chunk_size ≤ F.data.length → c = F.header.chunk_size) ∧
    c ≤ F.header.chunk_size := by
  have hlen := hc.data_length
  have hnp := hc.n_pos
  rcases hc.sizes with ⟨h1, h2⟩ | ⟨h1, h2, h3⟩
  · have hpos : 0 < (F.data.length : Int) := by
      have := Int.mul_nonneg (show 0 ≤ F.header.chunk_size by omega) (show 0 ≤ F.header.nchunks - 1 by omega)
      omega
    have hmaxB : F.header.chunk_size ≤ BLOSC_MAX_BUFFERSIZE := by
      have := hc.ok.2.2.2.1.2
      have : BLOSC_MAX_BUFFERSIZE = 2 ^ 31 - 17 := by decide
      omega
    have hle : (F.data.length : Int) ≤ F.header.chunk_size * (2 ^ 63 - 1) := by
      have h5 : F.header.nchunks ≤ 2 ^ 63 - 1 := by
        have h1 := hc.ok.2.2.2.2.2.1.2
        have : MAX_CHUNKS = 2 ^ 63 - 1 := by decide
        omega
      have h6 := Int.mul_le_mul_of_nonneg_left h5 (show 0 ≤ F.header.chunk_size by omega)
      have h7 : F.header.chunk_size * F.header.nchunks = F.header.chunk_size * (F.header.nchunks - 1) + F.header.chunk_size := by
        rw [Int.mul_sub]; omega
      omega
    obtain ⟨⟨n, c, l⟩, hr⟩ := (((C03_chunking_rejected F.data.length (.int F.header.chunk_size)).2.2.2.2 hpos
      F.header.chunk_size (.inl rfl)).2 ⟨by omega, hmaxB⟩).2 hle
    obtain ⟨c1, c2, -, c3, -, -, c4⟩ := C02_chunking_covers _ _ _ _ _ hr
    obtain ⟨c5, v, hv, c6, c7, c8⟩ := c4 (by omega)
    have : v = F.header.chunk_size := by
      rcases hv with h | ⟨s, h, -⟩
      · cases h; rfl
      · cases h
    subst this
    have hsame : F.header.chunk_size * (n - 1) + l = F.header.chunk_size * (F.header.nchunks - 1) + F.header.last_chunk := by
      by_cases hb : F.header.chunk_size ≤ (F.data.length : Int)
      · have := c7 hb; subst this; omega
      · have h9 := c8 1 (by omega)
        have : n = 1 := by omega
        subst this
        simp at c1 ⊢
        omega
    obtain ⟨e1, e2⟩ := euclid_unique ⟨c5, by omega⟩ ⟨h1, h2⟩ hsame
    have : n = F.header.nchunks := by omega
    subst this
    exact ⟨c, by rw [hr, e2], c7, c6⟩
  · have h0 : (F.data.length : Int) = 0 := by rw [hlen, h1, h2, h3]; rfl
    refine ⟨0, ?_, ?_, by omega⟩
    · rw [h0, h1, h3]; exact (C03_chunking_rejected 0 _).2.1 rfl
    · intro _; exact h2.symm

/-- the number of chunks an append adds is the difference of the numbers of chunks -/
theorem AppendCount.eq {cs : Int} {last n : Nat} {m k N : Int} (h : AppendCount cs last n k) (hl : 1 ≤ (last : Int) ∧ (last : Int) ≤ cs)
    (hN : cs * (N - 1) < cs * (m - 1) + last + n ∧ cs * (m - 1) + last + n ≤ cs * N) (hcs : cs ≤ BLOSC_MAX_BUFFERSIZE) : k = N - m := by
  have expand : ∀ x : Int, cs * (x - 1) = cs * x - cs := by intro x; rw [Int.mul_sub]; omega
  rw [expand, expand] at hN
  -- the last chunk of the total
  have hN' : cs * (N - 1) + (cs * m - cs + last + n - cs * (N - 1)) = cs * m - cs + last + n := by omega
  have hb1 : 1 ≤ cs * m - cs + last + n - cs * (N - 1) ∧ cs * m - cs + last + n - cs * (N - 1) ≤ cs := by
    rw [expand]; omega
  rcases h with ⟨h1, rfl⟩ | ⟨h1, c, lc, h2⟩
  · have hx : cs * (m - 1) + (last + n) = cs * (N - 1) + (cs * m - cs + last + n - cs * (N - 1)) := by rw [expand]; omega
    have := (euclid_unique ⟨by omega, by omega⟩ hb1 hx).1
    omega
  · obtain ⟨c1, c2, -, c3, -, -, c4⟩ := C02_chunking_covers _ _ _ _ _ h2
    obtain ⟨c5, v, hv, c6, c7, c8⟩ := c4 (by omega)
    have : v = cs := by
      rcases hv with h | ⟨s, h, -⟩
      · cases h; rfl
      · cases h
    subst this
    have hx : v * (k - 1) + lc = n - (v - last) := by
      by_cases hb : v ≤ n - (v - last)
      · have := c7 hb; subst this; omega
      · have h9 := c8 1 (by omega)
        have : k = 1 := by omega
        subst this
        simp at c1 ⊢
        omega
    have hy : v * (m + k - 1) + lc = v * (N - 1) + (v * m - v + last + n - v * (N - 1)) := by
      have : v * (m + k - 1) = v * m + v * (k - 1) := by rw [show m + k - 1 = m + (k - 1) by omega, Int.mul_add]
      omega
    have := (euclid_unique ⟨c5, by omega⟩ hb1 hy).1
    omega

/-- the bytes of a conforming file, split at its last chunk -/
theorem File.bytes_split {init : List (Bytes × Bytes)} {p : Bytes × Bytes} (hch : F.chunks = init ++ [p]) :
    F.bytes E = headPart E F init ++ (p.1 ++ ((F.impl E).function p.1 ++ F.junk)) := by
  unfold File.bytes File.body headPart
  rw [hch, List.map_append, records_append]
  simp

/-- what `append_fp` does to a conforming file -/
theorem append_cases (L : E.Laws) (hc : F.Conforming E) (ho : F.header.offsets = true) (hnn : F.NoNull)
    {new : Bytes} {args : AppendArgs} {l : List (Nat × Bytes)} {r : Except Err Int} {fp : FP}
    (hrun : appendFp E { data := new } new.length args { data := F.bytes E, log := l } = (r, fp)) :
    ∃ init p, F.chunks = init ++ [p] ∧ (p.2.length : Int) = F.header.last_chunk ∧
    ((∃ e, r = .error e ∧ fp.data = F.bytes E ∧ fp.log = l ∧ Refusal E F p new (args.filled F.header) e) ∨
    ∃ chs q k, Grown E F p new (args.filled F.header) chs q k ∧
      (((∀ o ∈ Spec.positions (F.impl E).function (F.front E).length ((init ++ (chs ++ [q])).map (·.1)), o < 2 ^ 63) ∧
        r = .ok k ∧ fp.data = (grownFile E F init (chs ++ [q]) q.2.length (p.1 ++ ((F.impl E).function p.1 ++ F.junk))).bytes E ∧
        fp.log = l ++ grownLog E F init chs q (p.1 ++ ((F.impl E).function p.1 ++ F.junk))) ∨
       ((¬ ∀ o ∈ Spec.positions (F.impl E).function (F.front E).length ((init ++ (chs ++ [q])).map (·.1)), o < 2 ^ 63) ∧
        (∃ e, r = .error e) ∧ 2 ^ 63 ≤ fp.data.length ∧
        ∃ rest, l ++ grownLog E F init chs q (p.1 ++ ((F.impl E).function p.1 ++ F.junk)) = fp.log ++ rest))) := by
  obtain ⟨init, p, e1, -, e3⟩ := hc.lengths
  refine ⟨init, p, e1, e3, ?_⟩
  have hD : ((F.impl E).function p.1).length = (F.impl E).size := Hash.size_eq L (File.lookup hc.toPre).2.1 _
  have hb := File.bytes_split (E := E) e1
  rw [hb] at hrun ⊢
  exact append_run L hc ho hnn e1 _ hD new args l r fp hrun

/-- why an append to a file that is not empty is refused -/
theorem Refusal.reason {init : List (Bytes × Bytes)} {p : Bytes × Bytes} (hc : F.Conforming E) (hch : F.chunks = init ++ [p])
    (hlast : (p.2.length : Int) = F.header.last_chunk) (hcs : 1 ≤ F.header.chunk_size) {new : Bytes} (hnew : new.length < 2 ^ 63)
    {a : BloscArgs} {e : Err} (h : Refusal E F p new a e) {N : Int}
    (hN : Spec.ChunkCount F.header.chunk_size (F.data ++ new).length N) :
    (F.header.max_app_chunks < N - F.header.nchunks ∧ e = .notEnoughSpace) ∨
    (N - F.header.nchunks ≤ F.header.max_app_chunks ∧ ∃ d, (d.length : Int) ≤ F.header.chunk_size ∧ E.compress d a = .error e ∧
      d = (p.2 ++ new).take F.header.chunk_size.toNat) := by
  have hB : BLOSC_MAX_BUFFERSIZE = 2 ^ 31 - 17 := by decide
  have hmaxB : F.header.chunk_size ≤ BLOSC_MAX_BUFFERSIZE := by have := hc.ok.2.2.2.1.2; omega
  have hsz : 1 ≤ F.header.last_chunk ∧ F.header.last_chunk ≤ F.header.chunk_size := by
    rcases hc.sizes with h | h
    · exact h
    · omega
  have hlen := hc.data_length
  have hcount : ∀ k, AppendCount F.header.chunk_size p.2.length new.length k → k = N - F.header.nchunks := by
    intro k hk
    refine hk.eq (by omega) ?_ hmaxB
    unfold Spec.ChunkCount at hN
    rw [List.length_append, Int.natCast_add, hlen, ← hlast] at hN
    exact hN
  rcases h with ⟨h1, h2⟩ | ⟨k, hk, ⟨h1, h2⟩ | ⟨h1, t, h2, h3, h4⟩⟩
  · exfalso
    have hpos : 0 < (new.length : Int) - (F.header.chunk_size - p.2.length) := by omega
    obtain ⟨r, hr⟩ := (((C03_chunking_rejected (new.length - (F.header.chunk_size - p.2.length)) (.int F.header.chunk_size)).2.2.2.2 hpos
      F.header.chunk_size (.inl rfl)).2 ⟨by omega, hmaxB⟩).2 (by
        have := Int.mul_le_mul_of_nonneg_right hcs (show (0 : Int) ≤ 2 ^ 63 - 1 by omega)
        omega)
    rw [h2] at hr; cases hr
  · have := hcount k hk; subst this; exact .inl ⟨h1, h2⟩
  · have := hcount k hk; subst this; exact .inr ⟨h1, _, h2, h3, h4⟩

theorem Grown.count_eq {p : Bytes × Bytes} (hc : F.Conforming E)
    (hlast : (p.2.length : Int) = F.header.last_chunk) (hcs : 1 ≤ F.header.chunk_size) {new : Bytes}
    {a : BloscArgs} {chs : List (Bytes × Bytes)} {q : Bytes × Bytes} {k : Int} (hg : Grown E F p new a chs q k) {N : Int}
    (hN : Spec.ChunkCount F.header.chunk_size (F.data ++ new).length N) : k = N - F.header.nchunks := by
  have hB : BLOSC_MAX_BUFFERSIZE = 2 ^ 31 - 17 := by decide
  have hmaxB : F.header.chunk_size ≤ BLOSC_MAX_BUFFERSIZE := by have := hc.ok.2.2.2.1.2; omega
  have hsz : 1 ≤ F.header.last_chunk ∧ F.header.last_chunk ≤ F.header.chunk_size := by
    rcases hc.sizes with h | h
    · exact h
    · omega
  refine hg.count.eq (by omega) ?_ hmaxB
  unfold Spec.ChunkCount at hN
  rw [List.length_append, Int.natCast_add, hc.data_length, ← hlast] at hN
  exact hN

/-- the chunks of a grown file are where offsets can reach, unless the file is huge -/
theorem Grown.reach (L : E.Laws) {init : List (Bytes × Bytes)} {p : Bytes × Bytes} (hc : F.Conforming E) (hch : F.chunks = init ++ [p])
    {new : Bytes} {a : BloscArgs} {chs : List (Bytes × Bytes)} {q : Bytes × Bytes} {k : Int} (hg : Grown E F p new a chs q k)
    (hsize : (F.bytes E).length + 100 * new.length < 2 ^ 62) :
    ∀ o ∈ Spec.positions (F.impl E).function (F.front E).length ((init ++ (chs ++ [q])).map (·.1)), o < 2 ^ 63 := by
  intro o ho
  have h1 := (positions_le_records _ _ _ o ho).2
  rw [List.map_append, records_append, List.length_append] at h1
  have h2 := records_length_le L (File.lookup hc.toPre).2.1 a (chs ++ [q]) hg.comp
  have h3 := Hash.size_le (File.lookup hc.toPre).2.1
  have h4 := congrArg List.length (File.bytes_split (E := E) hch)
  rw [headPart, List.length_append, List.length_append] at h4
  rw [hg.content, List.length_append] at h2
  obtain ⟨init0, p0, e1, -, e3⟩ := hc.lengths
  have hp0 : p0 = p := by
    rw [hch] at e1
    simpa using (List.append_inj' e1 rfl).2.symm
  subst hp0
  have h5 := hc.ok.2.2.2.1.2
  have hlast : F.header.last_chunk ≤ F.header.chunk_size := by rcases hc.sizes with h | h <;> omega
  have hk : k ≤ new.length := by
    rcases hg.count with ⟨-, rfl⟩ | ⟨h6, cs, lc, h7⟩
    · omega
    · obtain ⟨c1, c2, -, c3, -, -, c4⟩ := C02_chunking_covers _ _ _ _ _ h7
      obtain ⟨c5, v, hv, c6, c7, c8⟩ := c4 (by omega)
      have : v = F.header.chunk_size := by
        rcases hv with h | ⟨s, h, -⟩
        · cases h; rfl
        · cases h
      subst this
      have := c8 (new.length - (F.header.chunk_size - p0.2.length)) (by
        have := Int.mul_le_mul_of_nonneg_left (show 1 ≤ F.header.chunk_size by omega)
          (show 0 ≤ (new.length : Int) - (F.header.chunk_size - p0.2.length) by omega)
        omega)
      omega
  have hnum := hg.number
  have h8 : (chs ++ [q]).length * (16 + (F.impl E).size) ≤ (new.length + 1) * 80 :=
    Nat.mul_le_mul (by simp; omega) (by omega)
  omega

end

end Bloscpack
