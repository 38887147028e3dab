import Verif.Spec.Replace
import Verif.Props.Crash
import Verif.Props.Shared
/-
C105: replacing an archive.
-/
namespace Bloscpack
variable {μ : Type}

section
variable {E : Env μ}

theorem SecFor.bytes_det {md : Option μ} {m m1 m2 : MetadataArgs} {s1 s2 : Option (Section μ)} (h1 : SecFor E md m s1 m1)
    (h2 : SecFor E md m s2 m2) : optSecBytes E s1 = optSecBytes E s2 := by
  rcases h1 with ⟨rfl, rfl, -⟩ | ⟨S, s, hm, a1, a2, rfl, -⟩
  · rcases h2 with ⟨-, rfl, -⟩ | ⟨S, s, hm, -⟩
    · rfl
    · cases hm
  · rcases h2 with ⟨rfl, -⟩ | ⟨S', s', -, b1, b2, rfl, -⟩
    · cases hm
    · rw [a1] at b1
      cases b1
      show s.bytes E = s'.bytes E
      have hd : (s.impl E).function s.body = (s'.impl E).function s'.body := a2.digest.symm.trans b2.digest
      unfold Section.bytes
      rw [hd, ← a2.header, ← a2.body, ← a2.prealloc, b2.header, b2.body, b2.prealloc]

theorem records_length_eq {f : Bytes → Bytes} {n : Nat} (hf : ∀ x, (f x).length = n) : ∀ {cs ds : List Bytes},
    cs.map List.length = ds.map List.length → (Spec.records f cs).length = (Spec.records f ds).length
  | [], [], _ => rfl
  | [], _ :: _, h => by cases h
  | _ :: _, [], h => by cases h
  | c :: cs, d :: ds, h => by
    simp only [List.map_cons, List.cons.injEq] at h
    rw [records_cons, records_cons, List.length_append, List.length_append, List.length_append, List.length_append, hf, hf, h.1,
      records_length_eq hf h.2]

/-- the beginning of one byte string and the end of another one of the same shape -/
theorem spliced_get (A B C A' B' C' : Bytes) (hA : A'.length = A.length) (hB : B.length = B'.length) (i : Nat) :
    (A ++ (B ++ C'))[i]? = if i < A.length + B.length then (A ++ (B ++ C))[i]? else (A' ++ (B' ++ C'))[i]? := by
  rw [← List.append_assoc, ← List.append_assoc A B C, ← List.append_assoc A' B' C']
  split
  · rename_i h
    rw [← List.length_append] at h
    exact (List.getElem?_append_left h).trans (List.getElem?_append_left h).symm
  · rename_i h
    have h1 : (A ++ B).length ≤ i := by rw [List.length_append]; omega
    have h2 : (A' ++ B').length ≤ i := by rw [List.length_append]; omega
    have h3 : (A ++ B).length = (A' ++ B').length := by rw [List.length_append, List.length_append]; omega
    rw [List.getElem?_append_right h1, List.getElem?_append_right h2, h3]

end

/-! ### C105 -/

/-- C105: when replacing an archive is interrupted, at any point, unpacking what is in the file raises, or gives what it gave before, or the
new data. -/
theorem C105_interrupted_partial (E : Env μ) (L : E.Laws) (old : Bytes) (data : Bytes) (cs : ChunkSizeArg) (md : Option μ) (a : BloscArgs)
    (b : BloscpackArgs) (m : MetadataArgs) (r : Except Err MetadataArgs) (fp : FP) (h : packBytes E data cs md a b m = (r, some fp))
    (d : Bytes) (hd : Spec.Replacing old fp.log d) :
    (∃ e, unpackBytesFromBytes E d = .error e) ∨ unpackBytesFromBytes E d = unpackBytesFromBytes E old ∨
      unpackBytesFromBytes E d = .ok (data, md) := by
  rcases hd with rfl | hd
  · exact .inr (.inl rfl)
  · rcases C26_interrupted_pack E L data cs md a b m r fp h d hd with h | h
    · exact .inl h
    · exact .inr (.inr h)

/-- C105 is violated: whatever was in the file, there is a point where neither it nor the new archive is there. -/
theorem C105_lost_violated (E : Env μ) (old : Bytes) (data : Bytes) (cs : ChunkSizeArg) (md : Option μ) (a : BloscArgs)
    (b : BloscpackArgs) (m : MetadataArgs) (r : Except Err MetadataArgs) (fp : FP) (_h : packBytes E data cs md a b m = (r, some fp)) :
    ∃ d e, Spec.Replacing old fp.log d ∧ unpackBytesFromBytes E d = .error e :=
  ⟨[], _, .inr (.inl rfl), (C45_not_bloscpack E _ (.inl (by decide))).1⟩

/-- C105 is violated: a process that reads the archive while it is replaced by one with the same settings, data of the same length and chunks
that blosc compresses to the same sizes, gets any number of leading chunks of the old data followed by the new data, without an
exception, whatever the checksum. -/
theorem C105_mixture_violated (E : Env μ) (L : E.Laws) (old new : Bytes) (hlen : old.length = new.length) (cs : ChunkSizeArg) (md : Option μ)
    (a : BloscArgs) (b : BloscpackArgs) (m m1 m2 : MetadataArgs) (fp1 fp2 : FP)
    (h1 : packBytes E old cs md a b m = (.ok m1, some fp1)) (h2 : packBytes E new cs md a b m = (.ok m2, some fp2))
    (hsame : ∀ u v c d, u.length = v.length → E.compress u a = .ok c → E.compress v a = .ok d → c.length = d.length)
    (n c l : Int) (hn : calculateNchunks old.length cs = .ok (n, c, l)) (j : Nat) (hj : (j : Int) < n) :
    ∃ cut view, Spec.SeenReplaced fp1.data fp2.log cut view ∧
      ∀ bound, fp1.data.length ≤ bound → unpackShared E { view := view, bound := bound } =
        (.ok md, old.take (j * c.toNat) ++ new.drop (j * c.toNat)) := by
  obtain ⟨fp, F1, n', c', l', e1, a1, a2, a3, a4, a5, a6, a7, a8, a9, -⟩ := packBytes_ok L h1
  cases e1
  obtain ⟨fp, F2, n2, c2, l2, e1, b1, b2, b3, b4, b5, b6, b7, b8, b9, -⟩ := packBytes_ok L h2
  cases e1
  rw [hn] at a7
  rw [← hlen, hn] at b7
  cases a7
  cases b7
  have hH : F2.header = F1.header := by rw [a8] at b8; exact (Except.ok.inj b8).symm
  obtain ⟨-, -, -, -, -, -, g7, g8, g9, -⟩ := packHeader_ok a8
  have hrep : Spec.replay [] fp2.log = F2.bytes E := by rw [← (pack_crash_cases L h2).1, b1]
  have hI : F2.impl E = F1.impl E := by unfold File.impl; rw [hH]
  obtain ⟨-, hi2, -⟩ := File.lookup a2.toPre
  have hsec : (F2.secBytes E).length = (F1.secBytes E).length := by
    have e1 : F1.secBytes E = optSecBytes E F1.sec := by unfold File.secBytes optSecBytes; cases F1.sec <;> rfl
    have e2 : F2.secBytes E = optSecBytes E F2.sec := by unfold File.secBytes optSecBytes; cases F2.sec <;> rfl
    rw [e1, e2, a6.bytes_det b6]
  have hfront : (F2.front E).length = (F1.front E).length := by
    simp only [File.front, List.length_append, BloscpackHeader.bytes_length, hsec, a2.offsets_len, b2.offsets_len, hH]
  -- the chunks
  have hl1 : (F1.chunks.length : Int) = n := by rw [← a2.nchunks, g9]
  have hl2 : (F2.chunks.length : Int) = n := by rw [← b2.nchunks, hH, g9]
  have hplain : F1.chunks.map (fun q => q.2.length) = F2.chunks.map (fun q => q.2.length) := by
    obtain ⟨i1, p1, x1, x2, x3⟩ := a2.lengths
    obtain ⟨i2, p2, y1, y2, y3⟩ := b2.lengths
    rw [hH] at y2 y3
    have hl1' := hl1
    have hl2' := hl2
    rw [x1, List.length_append, List.length_singleton] at hl1'
    rw [y1, List.length_append, List.length_singleton] at hl2'
    rw [x1, y1]
    have k1 : i1.map (fun q => q.2.length) = List.replicate i1.length F1.header.chunk_size.toNat := by
      rw [List.eq_replicate_iff]
      refine ⟨by simp, fun z hz => ?_⟩
      obtain ⟨q, hq, rfl⟩ := List.mem_map.1 hz
      have := x2 q hq; omega
    have k2 : i2.map (fun q => q.2.length) = List.replicate i2.length F1.header.chunk_size.toNat := by
      rw [List.eq_replicate_iff]
      refine ⟨by simp, fun z hz => ?_⟩
      obtain ⟨q, hq, rfl⟩ := List.mem_map.1 hz
      have := y2 q hq; omega
    rw [List.map_append, List.map_append, k1, k2, show i1.length = i2.length by omega]
    simp only [List.map_cons, List.map_nil]
    congr 2
    omega
  have hcomp : F1.chunks.map (fun q => q.1.length) = F2.chunks.map (fun q => q.1.length) := by
    refine List.ext_getElem (by simp; omega) fun i u v => ?_
    have := congrArg (fun t => t[i]?) hplain
    simp only [List.length_map] at u v
    simp only [List.getElem?_map, List.getElem?_eq_getElem u, List.getElem?_eq_getElem v, Option.map_some, Option.some.injEq] at this
    simp only [List.getElem_map]
    exact hsame _ _ _ _ this (a9 _ (List.getElem_mem u)) (b9 _ (List.getElem_mem v))
  have hdata1 : ((F1.chunks.take j).map (·.2)).flatten = old.take (j * c.toNat) ∧
      ((F2.chunks.drop j).map (·.2)).flatten = new.drop (j * c.toNat) := by
    have hfl : ∀ G : File μ, G.Conforming E → G.header = F1.header → (((G.chunks.take j).map (·.2)).flatten).length = j * c.toNat := by
      intro G hG hGH
      obtain ⟨i1, p1, x1, x2, -⟩ := hG.lengths
      have hl : (G.chunks.length : Int) = n := by rw [← hG.nchunks, hGH, g9]
      rw [x1] at hl ⊢
      simp only [List.length_append, List.length_singleton] at hl
      rw [List.take_append_of_le_length (by omega), List.length_flatten, List.map_map]
      have : (i1.take j).map (List.length ∘ fun q : Bytes × Bytes => q.2) = List.replicate j c.toNat := by
        rw [List.eq_replicate_iff]
        refine ⟨by simp; omega, fun z hz => ?_⟩
        obtain ⟨q, hq, rfl⟩ := List.mem_map.1 hz
        have := x2 q (List.mem_of_mem_take hq)
        rw [hGH, g7] at this
        simp only [Function.comp]
        omega
      rw [this]; simp
    constructor
    · have h := hfl F1 a2 rfl
      rw [← a4, File.data]
      conv => rhs; rw [← List.take_append_drop j F1.chunks, List.map_append, List.flatten_append, ← h, List.take_left]
    · have h := hfl F2 b2 hH
      rw [← b4, File.data]
      conv => rhs; rw [← List.take_append_drop j F2.chunks, List.map_append, List.flatten_append, ← h, List.drop_left]
  -- the mixture
  let M : File μ := { F1 with chunks := F1.chunks.take j ++ F2.chunks.drop j }
  have hM : M.Valid E := by
    have hl : ((F1.chunks.take j ++ F2.chunks.drop j).length : Int) = n := by simp; omega
    refine ⟨⟨a2.ok, a2.version, a2.meta_flag, a2.sec_ok, a2.offsets_len, a2.offsets_small, ?_, ?_⟩, ?_⟩
    · show ((F1.chunks.take j ++ F2.chunks.drop j).length : Int) ≤ F1.header.nchunks
      omega
    · intro q hq
      rcases List.mem_append.1 hq with h | h
      · exact a2.chunks_ok q (List.mem_of_mem_take h)
      · exact b2.chunks_ok q (List.mem_of_mem_drop h)
    · show F1.header.nchunks = ((F1.chunks.take j ++ F2.chunks.drop j).length : Int)
      omega
  have hsz : ∀ x, ((F1.impl E).function x).length = (F1.impl E).size := Hash.size_eq L hi2
  have htake : ∀ (f : Bytes × Bytes → Nat), F1.chunks.map f = F2.chunks.map f → (F1.chunks.take j).map f = (F2.chunks.take j).map f := by
    intro f h
    rw [List.map_take, List.map_take, h]
  have hdrop : ∀ (f : Bytes × Bytes → Nat), F1.chunks.map f = F2.chunks.map f → (F1.chunks.drop j).map f = (F2.chunks.drop j).map f := by
    intro f h
    rw [List.map_drop, List.map_drop, h]
  have hr1 := records_length_eq hsz (cs := (F1.chunks.take j).map (·.1)) (ds := (F2.chunks.take j).map (·.1))
    (by simpa [List.map_map, Function.comp_def] using htake _ hcomp)
  have hr2 := records_length_eq hsz (cs := (F1.chunks.drop j).map (·.1)) (ds := (F2.chunks.drop j).map (·.1))
    (by simpa [List.map_map, Function.comp_def] using hdrop _ hcomp)
  have hb1 : F1.bytes E = F1.front E ++ (Spec.records (F1.impl E).function ((F1.chunks.take j).map (·.1)) ++
      Spec.records (F1.impl E).function ((F1.chunks.drop j).map (·.1))) := by
    rw [File.bytes, a3, List.append_nil, File.body, ← records_append, ← List.map_append, List.take_append_drop]
  have hb2 : F2.bytes E = F2.front E ++ (Spec.records (F1.impl E).function ((F2.chunks.take j).map (·.1)) ++
      Spec.records (F1.impl E).function ((F2.chunks.drop j).map (·.1))) := by
    rw [File.bytes, b3, List.append_nil, File.body, hI, ← records_append, ← List.map_append, List.take_append_drop]
  have hbM : M.bytes E = F1.front E ++ (Spec.records (F1.impl E).function ((F1.chunks.take j).map (·.1)) ++
      Spec.records (F1.impl E).function ((F2.chunks.drop j).map (·.1))) := by
    show F1.front E ++ (Spec.records (F1.impl E).function ((F1.chunks.take j ++ F2.chunks.drop j).map (·.1)) ++ F1.junk) = _
    rw [a3, List.append_nil, List.map_append, records_append]
  refine ⟨(F1.front E).length + (Spec.records (F1.impl E).function ((F1.chunks.take j).map (·.1))).length,
    fun _ i => (M.bytes E)[i]?, fun k i => ?_, fun bound hbound => ?_⟩
  · rw [a1, hrep]
    show (M.bytes E)[i]? = _
    rw [hb1, hb2, hbM]
    exact spliced_get _ _ _ _ _ _ hfront hr1 i
  · have hlM : (M.bytes E).length = fp1.data.length := by
      rw [a1, hb1, hbM]
      simp only [List.length_append]
      omega
    rw [unpackShared_alone E _ _ (by omega), unpackFrom_file L hM]
    show (Except.ok F1.metadata, ((F1.chunks.take j ++ F2.chunks.drop j).map (·.2)).flatten) = _
    rw [a5, List.map_append, List.flatten_append, hdata1.1, hdata1.2]

/-- Three chunks, of which the first comes from the old archive and the others from the new one. -/
example : (packBytes Toy.env [1, 2, 3, 4, 5] (.int 2) (some 5) {} {} {}).2.bind (fun fp1 =>
      (packBytes Toy.env [6, 7, 8, 9, 10] (.int 2) (some 5) {} {} {}).2.map fun fp2 =>
    let cut := fp1.data.length - 2 * ((16 + 2) + 4) + 1
    let r := unpackShared Toy.env { view := fun _ i => if i < cut then fp1.data[i]? else (Spec.replay [] fp2.log)[i]?, bound := 1000 }
    (r.1.toOption, r.2)) = some (some (some 5), [1, 2, 8, 9, 10]) := by
  decide +kernel

end Bloscpack
