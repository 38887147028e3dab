import Verif.Lemmas.AppendReads
import Verif.Props.SameFile
import Verif.Props.Append
/-
C77 (what is appended is what was read).
-/
namespace Bloscpack
variable {μ : Type}

theorem grownFile_valid {E : Env μ} (L : E.Laws) {F : File μ} {init C : List (Bytes × Bytes)} {p : Bytes × Bytes} {last : Int} {a : BloscArgs}
    {tail : Bytes} (hc : F.Located E) (ho : F.header.offsets = true) (hch : F.chunks = init ++ [p]) (hcs : 0 ≤ F.header.chunk_size) (hC : C ≠ [])
    (hk : (C.length : Int) - 1 ≤ F.header.max_app_chunks) (h0 : -1 ≤ last) (h1 : last ≤ F.header.chunk_size)
    (hcomp : ∀ x ∈ C, E.compress x.2 a = .ok x.1) : (grownFile E F init C last tail).Valid E := by
  have hcl : 1 ≤ C.length := by cases C with | nil => exact absurd rfl hC | cons => simp
  have hn : F.header.nchunks = init.length + 1 := by rw [hc.nchunks, hch]; simp
  have hN : (grownFile E F init C last tail).header.nchunks = ((grownFile E F init C last tail).chunks.length : Int) := by
    simp only [grownFile, List.length_append]; omega
  exact {
    ok := grownFile_header_ok hc.ok (by omega) hcs hC hk h0 h1
    version := hc.version
    meta_flag := hc.meta_flag
    sec_ok := hc.sec_ok
    offsets_len := by
      rw [grownFile_offsets_length hn ho hC hk]
      simp only [offsetsLen, grownFile, ho, if_true]
      congr 2
      omega
    offsets_small := by
      have := hc.offsets_small
      unfold offsetsLen at this ⊢
      simp only [grownFile]
      rw [show F.header.nchunks + ((C.length : Int) - 1) + (F.header.max_app_chunks - ((C.length : Int) - 1)) =
        F.header.nchunks + F.header.max_app_chunks by omega]
      exact this
    nchunks_le := by omega
    chunks_ok := by
      intro x hx
      rcases List.mem_append.1 hx with hx | hx
      · exact hc.chunks_ok x (by rw [hch]; exact List.mem_append_left _ hx)
      · exact L.decompress_compress _ _ _ (hcomp x hx)
    nchunks := hN }

theorem grownFile_located {E : Env μ} (L : E.Laws) {F : File μ} {init C : List (Bytes × Bytes)} {p : Bytes × Bytes} {last : Int} {a : BloscArgs}
    {tail : Bytes} (hc : F.Located E) (ho : F.header.offsets = true) (hch : F.chunks = init ++ [p]) (hcs : 0 ≤ F.header.chunk_size) (hC : C ≠ [])
    (hk : (C.length : Int) - 1 ≤ F.header.max_app_chunks) (h0 : -1 ≤ last) (h1 : last ≤ F.header.chunk_size)
    (hcomp : ∀ x ∈ C, E.compress x.2 a = .ok x.1)
    (hreach : ∀ o ∈ Spec.positions (F.impl E).function (F.front E).length ((init ++ C).map (·.1)), o < 2 ^ 63) :
    (grownFile E F init C last tail).Located E := by
  have hn : F.header.nchunks = init.length + 1 := by rw [hc.nchunks, hch]; simp
  have hfl := grownFile_front_length (last := last) (tail := tail) hc.toPre hn ho hC hk
  exact {
    toValid := grownFile_valid L hc ho hch hcs hC hk h0 h1 hcomp
    table := by
      intro _
      rw [hfl]
      rfl
    reach := by
      intro _
      rw [hfl]
      exact hreach }

/-- the same for files with a right offsets section, whatever the header says about the size of the last chunk, if it is not too large,
and whatever there is in place of the digest of the last chunk -/
theorem appends_what_was_read_digest (E : Env μ) (L : E.Laws) (F : File μ) (hc : F.Located E) (hnn : F.NoNull) (hcs : 0 ≤ F.header.chunk_size)
    (init : List (Bytes × Bytes)) (p : Bytes × Bytes) (hch : F.chunks = init ++ [p]) (D : Bytes)
    (hD : (D ++ F.junk).take (F.impl E).size = D) (hlc : F.header.last_chunk ≤ p.2.length)
    (first : Int → Bytes)
    (source : Int → Int → Int → Int → List Bytes) (hsrc : ∀ b cs lc k, 1 ≤ k → (source b cs lc k).length = k.toNat) (size : Nat)
    (args : AppendArgs) (k : Int) (fp : FP) (ho : F.header.offsets = true)
    (h : appendFrom E first source size args (Z [] (headPart E F init ++ (p.1 ++ (D ++ F.junk))) []) = (.ok k, fp)) :
    ∃ (pieces : List Bytes) (last : Int) (C : List (Bytes × Bytes)) (tail : Bytes),
      ((size ≤ F.header.chunk_size - p.2.length ∧ k = 0 ∧ pieces = [first size] ∧ last = F.header.last_chunk + size) ∨
       (F.header.chunk_size - p.2.length < size ∧ 1 ≤ k ∧ ∃ cs,
         calculateNchunks (size - (F.header.chunk_size - p.2.length)) (.int F.header.chunk_size) = .ok (k, cs, last) ∧
         pieces = first (F.header.chunk_size - p.2.length) :: source (F.header.chunk_size - p.2.length) cs last k)) ∧
      F.header.offsets = true ∧ (C.length : Int) = k + 1 ∧ k ≤ F.header.max_app_chunks ∧ -1 ≤ last ∧ last ≤ F.header.chunk_size ∧
      (∀ x ∈ C, E.compress x.2 (args.filled F.header) = .ok x.1) ∧
      C.map (·.2) = (match pieces with | [] => [] | x :: xs => (p.2 ++ x) :: xs) ∧
      fp.data = (grownFile E F init C last tail).bytes E ∧ (grownFile E F init C last tail).Located E := by
  have hl0 : -1 ≤ F.header.last_chunk := hc.ok.2.2.2.2.1.1
  rw [appendFrom_start_at L hc ho (offsetsPos_ok L hc.toPre hnn) hch _ hD first source size args []] at h
  split at h
  · rename_i hfit
    cases hcomp : E.compress (p.2 ++ first size) (args.filled F.header) with
    | error e =>
      unfold squeezeIn at h
      rw [Proc.bind_of_ok (fpSeek_Z _ _ (headPart E F init) (p.1 ++ (D ++ F.junk)) [] _ (by simp) rfl),
        Proc.bind_of_error (Proc.ofExcept_apply _ _ |>.trans (by rw [hcomp]))] at h
      cases h
    | ok c =>
      obtain ⟨fp', h1, h2, -⟩ := squeezeIn_ok (n := size) hc hcs ho hch D (by omega) hcomp []
      rw [h1] at h
      cases h
      have hm : 0 ≤ F.header.max_app_chunks := hc.ok.2.2.2.2.2.2.1.1
      refine ⟨[first size], F.header.last_chunk + size, [(c, p.2 ++ first size)], _, .inl ⟨hfit, rfl, rfl, rfl⟩, ho, by simp, hm, by omega, by omega,
        by simpa using hcomp, rfl, h2, ?_⟩
      refine grownFile_located L hc ho hch hcs (by simp) (by simpa using hm) (by omega) (by omega) (a := args.filled F.header) (by simpa using hcomp) ?_
      intro o ho2
      have := hc.reach ho
      rw [hch, List.map_append, List.map_singleton, positions_snoc_congr _ _ _ p.1 c] at this
      exact this o (by simpa using ho2)
  · rename_i hbig
    obtain ⟨cs, lc, C, g1, g2, g3, g4, g5, g6, g7, g8, g9, g10⟩ := growBy_ok (n := size) hc hcs ho hch D (hsrc _) (by omega)
      [] k fp h
    have hCne : C ≠ [] := by intro hC; rw [hC] at g4; simp at g4; omega
    exact ⟨_, lc, C, _, .inr ⟨by omega, g3, cs, g1, rfl⟩, ho, g4, g2, by omega, g6, g7, g8, g9,
      grownFile_located L hc ho hch hcs hCne (by omega) (by omega) g6 g7 g10⟩

theorem appends_what_was_read (E : Env μ) (L : E.Laws) (F : File μ) (hc : F.Located E) (hnn : F.NoNull) (hcs : 0 ≤ F.header.chunk_size)
    (init : List (Bytes × Bytes)) (p : Bytes × Bytes) (hch : F.chunks = init ++ [p]) (hlc : F.header.last_chunk ≤ p.2.length)
    (first : Int → Bytes)
    (source : Int → Int → Int → Int → List Bytes) (hsrc : ∀ b cs lc k, 1 ≤ k → (source b cs lc k).length = k.toNat) (size : Nat)
    (args : AppendArgs) (k : Int) (fp : FP) (h : appendFrom E first source size args { data := F.bytes E } = (.ok k, fp)) :
    ∃ (pieces : List Bytes) (last : Int) (C : List (Bytes × Bytes)) (tail : Bytes),
      ((size ≤ F.header.chunk_size - p.2.length ∧ k = 0 ∧ pieces = [first size] ∧ last = F.header.last_chunk + size) ∨
       (F.header.chunk_size - p.2.length < size ∧ 1 ≤ k ∧ ∃ cs,
         calculateNchunks (size - (F.header.chunk_size - p.2.length)) (.int F.header.chunk_size) = .ok (k, cs, last) ∧
         pieces = first (F.header.chunk_size - p.2.length) :: source (F.header.chunk_size - p.2.length) cs last k)) ∧
      F.header.offsets = true ∧ (C.length : Int) = k + 1 ∧ k ≤ F.header.max_app_chunks ∧ -1 ≤ last ∧ last ≤ F.header.chunk_size ∧
      (∀ x ∈ C, E.compress x.2 (args.filled F.header) = .ok x.1) ∧
      C.map (·.2) = (match pieces with | [] => [] | x :: xs => (p.2 ++ x) :: xs) ∧
      fp.data = (grownFile E F init C last tail).bytes E ∧ (grownFile E F init C last tail).Located E := by
  cases ho : F.header.offsets with
  | false =>
    have : appendFrom E first source size args { data := F.bytes E } = (.error .runtimeError, Z (F.front E) (F.body E ++ F.junk) []) := by
      obtain ⟨os, h1, -, h2⟩ := readBeginning_file L hc.toPre (F.body E ++ F.junk) []
      have h3 := (File.lookup hc.toPre).1
      have hz : ({ data := F.bytes E, log := [] } : FP) = Z [] (F.front E ++ (F.body E ++ F.junk)) [] := rfl
      unfold appendFrom
      rw [hz, Proc.bind_of_ok h1, Proc.bind_of_ok (Proc.ofExcept_apply _ _ |>.trans (by rw [h3])),
        Proc.bind_of_error (Proc.raiseIf_pos (h2 ho) _ _)]
    rw [h] at this; cases this
  | true =>
    have hz : ({ data := F.bytes E } : FP) = Z [] (headPart E F init ++ (p.1 ++ ((F.impl E).function p.1 ++ F.junk))) [] := by
      rw [File.bytes, File.body, hch]
      simp [headPart, records_append, File.front, Z, Spec.records]
    have hD : ((F.impl E).function p.1).length = (F.impl E).size := Hash.size_eq L (File.lookup hc.toPre).2.1 _
    rw [hz] at h
    have := appends_what_was_read_digest E L F hc hnn hcs init p hch _ (take_digest hD _) hlc first source hsrc size args k fp ho h
    rwa [ho] at this

/-- C77: whatever the reads from the file with the new content deliver, of the announced lengths or not (as when that file is changed
in the meantime, is shorter than announced, or is the very file that is appended to): if `append_fp` succeeds, the file unpacks to
the previous data followed by what the reads delivered, in this order, and to the same metadata. There is one read if the announced
size fits into the last chunk; otherwise one read to fill it up and one for each new chunk. The header counts the announced size. -/
theorem C77_appends_what_was_read (E : Env μ) (L : E.Laws) (F : File μ) (hc : F.Conforming E) (hnn : F.NoNull) (first : Int → Bytes)
    (source : Int → Int → Int → Int → List Bytes) (hsrc : ∀ b cs lc k, 1 ≤ k → (source b cs lc k).length = k.toNat) (size : Nat)
    (args : AppendArgs) (k : Int) (fp : FP) (h : appendFrom E first source size args { data := F.bytes E } = (.ok k, fp)) :
    ∃ (pieces : List Bytes) (last : Int) (hd : BloscpackHeader) (rest : _),
      ((size ≤ F.header.chunk_size - F.header.last_chunk ∧ k = 0 ∧ pieces = [first size] ∧ last = F.header.last_chunk + size) ∨
       (F.header.chunk_size - F.header.last_chunk < size ∧ 1 ≤ k ∧ ∃ cs,
         calculateNchunks (size - (F.header.chunk_size - F.header.last_chunk)) (.int F.header.chunk_size) = .ok (k, cs, last) ∧
         pieces = first (F.header.chunk_size - F.header.last_chunk) :: source (F.header.chunk_size - F.header.last_chunk) cs last k)) ∧
      unpackBytesFromBytes E fp.data = .ok (F.data ++ pieces.flatten, F.metadata) ∧
      (readBeginning E { data := fp.data }).1 = .ok (hd, rest) ∧
      hd = { F.header with last_chunk := last, nchunks := F.header.nchunks + k, max_app_chunks := F.header.max_app_chunks - k } := by
  have key : ∀ (init C : List (Bytes × Bytes)) (p : Bytes × Bytes) (last : Int) (tail : Bytes) (pieces : List Bytes),
      F.chunks = init ++ [p] → C ≠ [] →
      F.header.offsets = true → (C.length : Int) = k + 1 → k ≤ F.header.max_app_chunks → -1 ≤ last → last ≤ F.header.chunk_size →
      (∀ x ∈ C, E.compress x.2 (args.filled F.header) = .ok x.1) → (C.map (·.2)).flatten = p.2 ++ pieces.flatten →
      fp.data = (grownFile E F init C last tail).bytes E → (grownFile E F init C last tail).Valid E →
      unpackBytesFromBytes E fp.data = .ok (F.data ++ pieces.flatten, F.metadata) ∧ ∃ rest,
        (readBeginning E { data := fp.data }).1 =
          .ok ({ F.header with last_chunk := last, nchunks := F.header.nchunks + k, max_app_chunks := F.header.max_app_chunks - k }, rest) := by
    intro init C p last tail pieces hch hC ho hCl hk h0 h1 hcomp hpc hdata hval
    have hv := hval
    have hGd : (grownFile E F init C last tail).data = F.data ++ pieces.flatten := by
      show ((init ++ C).map (·.2)).flatten = (F.chunks.map (·.2)).flatten ++ _
      rw [hch, List.map_append, List.flatten_append, hpc, List.map_append, List.flatten_append]
      simp
    have hGh : (grownFile E F init C last tail).header =
        { F.header with last_chunk := last, nchunks := F.header.nchunks + k, max_app_chunks := F.header.max_app_chunks - k } := by
      have e : ((C.length : Int) - 1) = k := by omega
      simp only [grownFile, e]
    have hGm : (grownFile E F init C last tail).metadata = F.metadata := rfl
    refine ⟨?_, ?_⟩
    · rw [hdata, unpackBytes_ok (unpackFrom_file L hv)]
      simp only [hGd, hGm]
    · obtain ⟨os, r1, -⟩ := readBeginning_file L hv.toPre ((grownFile E F init C last tail).body E ++ (grownFile E F init C last tail).junk) []
      have r1' : readBeginning E { data := (grownFile E F init C last tail).bytes E } = _ := r1
      rw [hdata, r1', hGh]
      exact ⟨_, rfl⟩
  obtain ⟨init, p, hch, -, hl⟩ := hc.lengths
  have hcs : 0 ≤ F.header.chunk_size := by rcases hc.sizes with h | h <;> omega
  obtain ⟨pieces, last, C, tail, hp, ho, g4, g2, g5, g6, g7, g8, g9, g10⟩ :=
    appends_what_was_read E L F hc.located hnn hcs init p hch (by omega) first source hsrc size args k fp h
  rw [hl] at hp
  have hk : 0 ≤ k := by rcases hp with hp | hp <;> omega
  have hCne : C ≠ [] := by intro hC; rw [hC] at g4; simp at g4; omega
  obtain ⟨k1, rest, k2⟩ := key init C p last tail pieces hch hCne ho g4 g2 g5 g6 g7 (by
    rw [g8]
    rcases hp with ⟨-, -, rfl, -⟩ | ⟨-, -, cs, -, rfl⟩ <;> simp) g9 g10.toValid
  exact ⟨pieces, last, _, rest, hp, k1, k2, rfl⟩

/-- reading from a file in pieces of the sizes `append_fp` asks for -/
theorem fp_reads (A R : Bytes) (l) (b : Nat) (size cs lc k v : Int) (hc : calculateNchunks size (.int v) = .ok (k, cs, lc))
    (hs : 0 ≤ size) :
    ((Z A R l).read b).1 = R.take b ∧
    (plainFPSource ((Z A R l).read b).2 cs lc k).items.flatten = (R.drop b).take size.toNat := by
  have hrd : (Z A R l).read b = (R.take b, Z (A ++ R.take b) (R.drop b) l) := by
    have := fpRead_Z A R l b
    simp only [fpRead_eq, Prod.mk.injEq, Except.ok.injEq] at this
    exact Prod.ext this.1 this.2
  refine ⟨by rw [hrd], ?_⟩
  rw [hrd]
  obtain ⟨h1, h2, -, h4, -, h5, h6⟩ := C02_chunking_covers _ _ _ _ _ hc
  have hcl : 0 ≤ lc ∧ 0 ≤ cs := by
    by_cases hz : size = 0
    · have := h5 hz; omega
    · have := (h6 hz).1; omega
  have e1 : ((k - 1).toNat : Int) = k - 1 := Int.toNat_of_nonneg (by omega)
  have e2 : (cs.toNat : Int) = cs := Int.toNat_of_nonneg hcl.2
  have e3 : (lc.toNat : Int) = lc := Int.toNat_of_nonneg hcl.1
  obtain ⟨r1, -⟩ := readMany_take (List.replicate (k - 1).toNat cs.toNat ++ [lc.toNat]) (A ++ R.take b) (R.drop b) l
  have hs' : (List.replicate (k - 1).toNat cs.toNat ++ [lc.toNat]).map (fun (k : Nat) => (k : Int)) =
      List.replicate (k - 1).toNat cs ++ [lc] := by
    rw [List.map_append, List.map_replicate, List.map_singleton, e2, e3]
  rw [hs'] at r1
  have hsum : (List.replicate (k - 1).toNat cs.toNat ++ [lc.toNat]).sum = size.toNat := by
    rw [List.sum_append, List.sum_replicate_nat, List.sum_singleton]
    have : size = (((k - 1).toNat * cs.toNat + lc.toNat : Nat) : Int) := by
      rw [Int.natCast_add, Int.natCast_mul, e1, e2, e3, ← h1, Int.mul_comm]
    omega
  rw [hsum] at r1
  exact r1

theorem readMany_length (sizes : List Int) (fp : FP) : (readMany sizes fp).1.length = sizes.length := by
  induction sizes generalizing fp with
  | nil => rfl
  | cons k sizes ih => simp [readMany, ih]

/-- C77, for a file with the new content, read from wherever it stands (`A` is what is before the position, `R` what comes after),
with any announced size: if `append_fp` succeeds, exactly the first `size` bytes from the position on have been appended; all that
there are, if there are fewer, and no exception tells. -/
theorem C77_announced_size (E : Env μ) (L : E.Laws) (F : File μ) (hc : F.Conforming E) (hnn : F.NoNull) (A R : Bytes) (l) (size : Nat)
    (args : AppendArgs) (k : Int) (fp : FP)
    (h : appendFp E { data := A ++ R, pos := A.length, log := l } size args { data := F.bytes E } = (.ok k, fp)) :
    unpackBytesFromBytes E fp.data = .ok (F.data ++ R.take size, F.metadata) := by
  have hz : ({ data := A ++ R, pos := A.length, log := l } : FP) = Z A R l := rfl
  rw [hz] at h
  have hsrc : ∀ b cs lc k, 1 ≤ k → (plainFPSource ((Z A R l).read b).2 cs lc k).items.length = k.toNat := by
    intro b cs lc k hk
    show (readMany _ _).1.length = _
    rw [readMany_length, List.length_append, List.length_replicate, List.length_singleton]
    omega
  obtain ⟨pieces, last, hd, rest, hp, hu, -⟩ := C77_appends_what_was_read E L F hc hnn (fun n => ((Z A R l).read n).1)
    (fun b cs lc k => (plainFPSource ((Z A R l).read b).2 cs lc k).items) hsrc size args k fp h
  rw [hu]
  have hroom : F.header.chunk_size - F.header.last_chunk = ((F.header.chunk_size - F.header.last_chunk).toNat : Int) := by
    rcases hc.sizes with h | h <;> omega
  rcases hp with ⟨-, -, rfl, -⟩ | ⟨h1, h2, cs, h3, rfl⟩
  · have hrd : (Z A R l).read size = (R.take size, Z (A ++ R.take size) (R.drop size) l) := by
      have := fpRead_Z A R l size
      simp only [fpRead_eq, Prod.mk.injEq, Except.ok.injEq] at this
      exact Prod.ext this.1 this.2
    simp [hrd]
  · rw [hroom] at h1 h3
    generalize (F.header.chunk_size - F.header.last_chunk).toNat = b at *
    obtain ⟨r1, r2⟩ := fp_reads A R l b _ _ _ _ _ h3 (by omega)
    rw [hroom, List.flatten_cons, r1, r2, show ((size : Int) - b).toNat = size - b by omega, ← List.take_add,
      show b + (size - b) = size by omega]

-- a file announced as five bytes long that has three from its position on: they are appended, the header counts five
example : (packBytesToBytes Toy.env [1, 2, 3] (.int 2) (some 5) {} { max_app_chunks := .int 2 }
      { max_meta_size := .int 12 }).toOption.map (fun out =>
    let r := appendFp Toy.env { data := [9, 9, 4, 5, 6], pos := 2 } 5 {} { data := out }
    (r.1.toOption, (unpackBytesFromBytes Toy.env r.2.data).toOption)) = some (some 2, some ([1, 2, 3, 4, 5, 6], some 5)) := by
  decide +kernel

example : (packBytesToBytes Toy.env [1, 2, 3] (.int 2) (some 5) {} { max_app_chunks := .int 2 }
      { max_meta_size := .int 12 }).toOption.map (fun out =>
    let r := appendFp Toy.env { data := [9, 9, 4, 5, 6], pos := 2 } 5 {} { data := out }
    ((readBeginning Toy.env { data := r.2.data }).1.toOption.map (fun b => (b.1.nchunks, b.1.last_chunk)))) = some (some (4, 2)) := by
  decide +kernel

-- a file appended to itself, the first read of one byte delivering the old contents, the next one what was written by then
example : (packBytesToBytes Toy.env [1, 2, 3] (.int 2) (some 5) {} { max_app_chunks := .int 2 }
      { max_meta_size := .int 12 }).toOption.map (fun out =>
    let r := appendFrom Toy.env (fun n => out.take n.toNat) (fun _ _ _ _ => [[77, 78], [79]]) 4 {} { data := out }
    (r.1.toOption, (unpackBytesFromBytes Toy.env r.2.data).toOption)) =
    some (some 2, some ([1, 2, 3, 98, 77, 78, 79], some 5)) := by
  decide +kernel

end Bloscpack
