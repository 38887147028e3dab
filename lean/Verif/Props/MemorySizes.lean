import Verif.Props.MemoryIO
/-
C80: sources and sinks told a number of chunks that is not the number of chunks there are.
-/
namespace Bloscpack
variable {μ σ τ : Type}

theorem unpackLoop_split (src : CompressedSource σ) (put : Bytes → Proc τ Unit) (a b i : Nat) (s : σ × τ) :
    unpackLoop src put (a + b) i s = (unpackLoop src put a i >>= fun _ => unpackLoop src put b (i + a)) s := by
  induction a generalizing i s with
  | zero => simp [unpackLoop, Proc.pure, bind, Proc.bind]
  | succ a ih =>
    rw [Nat.succ_add]
    simp only [unpackLoop, bind, Proc.bind] at ih ⊢
    split
    · split
      · split
        · rw [ih]
          simp [Nat.add_assoc, Nat.add_comm 1]
        · rename_i h; simp_all
      · rename_i h; simp_all
    · rename_i h; simp_all

/-- the sink after its configuration and the metadata -/
def MemSink.start (impl : Hash) (n : Int) (md : Option μ) (m : MetadataArgs) : MemSink μ :=
  { impl := impl, nchunks := n, chunks := List.replicate n.toNat none, checksums := List.replicate n.toNat none,
    metadata := md, metadata_args := md.map (fun _ => m) }

/-- packing into memory is the loop over the chunks from the configured sink on -/
theorem pack_mem_eq {E : Env μ} (src : PlainSource) (n c l : Int) (md : Option μ) (a : BloscArgs) (b : BloscpackArgs)
    (m : MetadataArgs) (items : List Bytes) (hsrc : src c l n = ⟨items, none⟩) (s0 : MemSink μ) :
    (∃ e, packHeader n c l md a b = .error e ∧ pack E src (compressedMemorySink E) n c l md a b m s0 = (.error e, s0)) ∨
    ∃ h impl, packHeader n c l md a b = .ok h ∧ h.checksumImpl E = .ok impl ∧
      pack E src (compressedMemorySink E) n c l md a b m s0 =
        (match packLoop E (compressedMemorySink E) a 0 items (.start impl n md m) with
         | (.ok (), s) => (.ok m, s)
         | (.error e, s) => (.error e, s)) := by
  unfold pack
  cases hph : packHeader n c l md a b with
  | error e =>
    refine .inl ⟨e, rfl, ?_⟩
    rw [Proc.bind_of_error (Proc.ofExcept_apply _ _)]
  | ok h =>
    right
    obtain ⟨hok, -, -, -, -, -, -, -, hnch, -⟩ := packHeader_ok hph
    obtain ⟨impl, himpl, -, -⟩ := checksumLookup_of (hl := E.hashlib) hok.2.1
    have himpl' : h.checksumImpl E = .ok impl := himpl
    refine ⟨h, impl, rfl, himpl', ?_⟩
    rw [Proc.bind_of_ok (Proc.ofExcept_apply _ _)]
    have h1 : (compressedMemorySink E).configure a h s0 =
        (.ok (), { impl := impl, nchunks := n, chunks := List.replicate n.toNat none, checksums := List.replicate n.toNat none }) := by
      show (Proc.ofExcept (h.checksumImpl E) >>= _) _ = _
      rw [Proc.bind_of_ok (Proc.ofExcept_apply _ _ |>.trans (by rw [himpl'])), hnch]
      rfl
    rw [Proc.bind_of_ok h1]
    have h2 : (compressedMemorySink E).writeBloscpackHeader = Proc.pure () := rfl
    rw [h2, Proc.pure_bind']
    have h3 : packMetadata (compressedMemorySink E) md m
        { impl := impl, nchunks := n, chunks := List.replicate n.toNat none, checksums := List.replicate n.toNat none } =
        (.ok m, .start impl n md m) := by
      cases md <;> rfl
    rw [Proc.bind_of_ok h3]
    have h4 : (compressedMemorySink E).initOffsets = Proc.pure () := rfl
    rw [h4, Proc.pure_bind']
    simp only [hsrc]
    simp only [bind, Proc.bind]
    split <;> rename_i h5
    · rw [h5]; rfl
    · rw [h5]

/-- the sink with `c` in slot `i` -/
def MemSink.store (s : MemSink μ) (i : Nat) (c : Bytes) : MemSink μ :=
  { s with chunks := s.chunks.set i (some c), checksums := s.checksums.set i (some (doChecksum s.impl c)) }

/-- more chunks than slots: the loop fails -/
theorem packLoop_mem_over {E : Env μ} (a : BloscArgs) (ds : List Bytes) (i : Nat) (s : MemSink μ) (h : s.chunks.length < i + ds.length)
    (hi : i ≤ s.chunks.length) :
    ∃ e s', packLoop E (compressedMemorySink E) a i ds s = (.error e, s') ∧
      ((∀ d ∈ ds, ∃ c, E.compress d a = .ok c) → e = .indexError) := by
  induction ds generalizing i s with
  | nil => simp at h; omega
  | cons d ds ih =>
    simp only [List.length_cons] at h
    unfold packLoop
    cases hc : E.compress d a with
    | error e =>
      refine ⟨e, s, ?_, ?_⟩
      · rw [Proc.bind_of_error (Proc.ofExcept_apply _ _)]
      · intro hall
        obtain ⟨c, hc'⟩ := hall d List.mem_cons_self
        rw [hc] at hc'; cases hc'
    | ok c =>
      rw [Proc.bind_of_ok (Proc.ofExcept_apply _ _)]
      by_cases hlt : i < s.chunks.length
      · have hput : (compressedMemorySink E).put i c s = (.ok (), s.store i c) := by
          show (Proc.get >>= _) s = _
          rw [Proc.bind_of_ok (Proc.get_apply _), if_pos hlt]
          rfl
        rw [Proc.bind_of_ok hput]
        obtain ⟨e, s', h1, h2⟩ := ih (i + 1) (s.store i c) (by simp [MemSink.store]; omega) (by simp [MemSink.store]; omega)
        exact ⟨e, s', h1, fun hall => h2 fun d' hd' => hall d' (List.mem_cons_of_mem _ hd')⟩
      · have hput : (compressedMemorySink E).put i c s = (.error .indexError, s) := by
          show (Proc.get >>= _) s = _
          rw [Proc.bind_of_ok (Proc.get_apply _), if_neg hlt]
          rfl
        rw [Proc.bind_of_error hput]
        exact ⟨_, _, rfl, fun _ => rfl⟩

/-- C80, more chunks than announced: packing them into memory fails; if all chunks can be compressed and the settings
are valid it is with an `IndexError`. -/
theorem C80_too_many_partial (E : Env μ) (chunks : List Bytes) (n c l : Int) (md : Option μ) (a : BloscArgs) (b : BloscpackArgs)
    (m : MetadataArgs) (s0 : MemSink μ) (hn : n.toNat < chunks.length) :
    ∃ e s, pack E (plainMemorySource chunks) (compressedMemorySink E) n c l md a b m s0 = (.error e, s) ∧
      ((∃ h, packHeader n c l md a b = .ok h) → (∀ d ∈ chunks, ∃ x, E.compress d a = .ok x) → e = .indexError) := by
  rcases pack_mem_eq (E := E) (plainMemorySource chunks) n c l md a b m chunks rfl s0 with ⟨e, h1, h2⟩ | ⟨h, impl, h1, -, h2⟩
  · refine ⟨e, s0, h2, ?_⟩
    rintro ⟨h, hh⟩
    rw [h1] at hh; cases hh
  · obtain ⟨e, s', h3, h4⟩ := packLoop_mem_over (E := E) a chunks 0 (.start impl n md m) (by simpa [MemSink.start] using hn) (Nat.zero_le _)
    rw [h3] at h2
    exact ⟨e, s', h2, fun _ => h4⟩

/-- the sink after `cs` were put into it and slots are left over -/
theorem filled_start_get {impl : Hash} {n : Int} {md : Option μ} {m : MetadataArgs} {cs : List Bytes} (i : Nat) :
    (∀ c, cs[i]? = some c → (compressedMemorySource ((MemSink.start impl n md m).filled [] cs)).next i =
      Proc.pure (c, some (doChecksum impl c))) ∧
    (cs.length ≤ i → i < n.toNat → (compressedMemorySource ((MemSink.start impl n md m).filled [] cs)).next i =
      Proc.raise .typeError) := by
  constructor
  · intro c hc
    obtain ⟨hi, rfl⟩ := List.getElem?_eq_some_iff.1 hc
    simp [compressedMemorySource, MemSink.filled, List.getElem?_append_left, hi, MemSink.start]
  · intro h1 h2
    have : ((MemSink.start impl n md m).filled [] cs).chunks[i]? = some none := by
      simp only [MemSink.filled, List.nil_append, MemSink.start, List.length_nil, Nat.zero_add, List.drop_replicate]
      rw [List.getElem?_append_right (by simpa using h1), List.getElem?_replicate, if_pos (by simp; omega)]
    simp [compressedMemorySource, this]

theorem unpackLoop_filled {E : Env μ} {impl : Hash} (hi : impl ∈ checksums E.hashlib) {n : Int} {md : Option μ}
    {m : MetadataArgs} (done chs : List (Bytes × Bytes)) (hch : ∀ p ∈ chs, E.decompress p.1 = .ok p.2) (pre : Bool) (ds : List Bytes)
    (room : Nat) (more : List (Bytes × Bytes)) (hr : pre = true → chs.length ≤ room) :
    unpackLoop (compressedMemorySource ((MemSink.start impl n md m).filled [] ((done ++ chs ++ more).map (·.1)))) (plainMemorySinkPut E)
      chs.length done.length ((), .holding pre ds room) = (.ok (), ((), .holding pre (ds ++ chs.map (·.2)) (room - chs.length))) := by
  induction chs generalizing done ds room with
  | nil => simp [unpackLoop, Proc.pure]
  | cons p ps ih =>
    simp only [List.length_cons] at hr ⊢
    unfold unpackLoop
    have hn := (filled_start_get (impl := impl) (n := n) (md := md) (m := m) (cs := (done ++ p :: ps ++ more).map (·.1)) done.length).1
      p.1 (by simp)
    have e1 : Proc.onFst (τ := PlainMemSink) ((compressedMemorySource ((MemSink.start impl n md m).filled []
        ((done ++ p :: ps ++ more).map (·.1)))).next done.length) ((), .holding pre ds room) =
          (.ok (p.1, some (doChecksum impl p.1)), ((), .holding pre ds room)) := by
      rw [hn]; rfl
    rw [Proc.bind_of_ok e1]
    have e2 : checkDigest impl p.1 (some (doChecksum impl p.1)) = .ok () := by
      rw [doChecksum_eq hi]
      simp [checkDigest]
    rw [Proc.bind_of_ok (Proc.ofExcept_apply _ _ |>.trans (by rw [show (compressedMemorySource _).checksumImpl = impl from rfl, e2]))]
    have e3 : Proc.onSnd (τ := Unit) (plainMemorySinkPut E p.1) ((), .holding pre ds room) =
        (.ok (), ((), .holding pre (ds ++ [p.2]) (room - 1))) := by
      simp only [Proc.onSnd]
      cases pre with
      | true => rw [plainMem_put (hch p List.mem_cons_self) _ _ _ (by have := hr rfl; omega)]
      | false =>
        have := plainMem_put (E := E) (hch p List.mem_cons_self) false ds 1 Nat.one_pos
        simp only [PlainMemSink.holding, Bool.false_eq_true, if_false] at this ⊢
        rw [this]
    rw [Proc.bind_of_ok e3]
    have := ih (done ++ [p]) (fun q hq => hch q (List.mem_cons_of_mem _ hq)) (ds ++ [p.2]) (room - 1) (by intro h; have := hr h; omega)
    simp only [List.append_assoc, List.singleton_append, List.length_append, List.length_singleton, List.cons_append, List.nil_append] at this ⊢
    rw [this]
    simp [Nat.sub_sub, Nat.add_comm]

/-- what packing at most as many chunks as announced leaves in memory -/
theorem pack_mem_short {E : Env μ} {chunks : List Bytes} {n c l : Int} {md : Option μ} {a : BloscArgs} {b : BloscpackArgs}
    {m m' : MetadataArgs} {s0 s : MemSink μ} (hn : chunks.length ≤ n.toNat)
    (h : pack E (plainMemorySource chunks) (compressedMemorySink E) n c l md a b m s0 = (.ok m', s)) :
    ∃ (impl : Hash) (chs : List (Bytes × Bytes)), impl ∈ checksums E.hashlib ∧ chs.map (·.2) = chunks ∧ (∀ p ∈ chs, E.compress p.2 a = .ok p.1) ∧ m' = m ∧
      s = (MemSink.start impl n md m).filled [] (chs.map (·.1)) := by
  rcases pack_mem_eq (E := E) (plainMemorySource chunks) n c l md a b m chunks rfl s0 with ⟨e, -, h2⟩ | ⟨hd, impl, -, hi, h2⟩
  · rw [h2] at h; cases h
  · have hstart : (MemSink.start impl n md m).filled [] [] = .start impl n md m := rfl
    have := packLoop_mem (E := E) a chunks (.start impl n md m) [] (by simp [MemSink.start]) (by simpa [MemSink.start] using hn)
    rw [hstart, List.length_nil] at this
    rcases this with ⟨chs, e1, e2, h3⟩ | ⟨_, _, _, e, s', -, -, -, h3⟩
    · rw [h3] at h2
      rw [h2] at h
      cases h
      exact ⟨impl, chs, (checksumLookup_mem hi).1, e1, e2, rfl, rfl⟩
    · rw [h3] at h2
      rw [h2] at h
      cases h

/-- C80, fewer chunks than announced: if packing succeeds, unpacking the result is an error (`TypeError`), after all
chunks were delivered -/
theorem C80_too_few (E : Env μ) (L : E.Laws) (chunks : List Bytes) (n c l : Int) (md : Option μ) (a : BloscArgs) (b : BloscpackArgs)
    (m m' : MetadataArgs) (s0 s : MemSink μ) (hn : chunks.length < n.toNat)
    (h : pack E (plainMemorySource chunks) (compressedMemorySink E) n c l md a b m s0 = (.ok m', s)) :
    ∃ t, unpack (compressedMemorySource s) (plainMemorySinkPut E) ((), .new none) = (.error .typeError, ((), t)) ∧
      t.chunks = chunks.map some := by
  obtain ⟨impl, chs, hi, rfl, e2, -, rfl⟩ := pack_mem_short (Nat.le_of_lt hn) h
  rw [List.length_map] at hn
  obtain ⟨k, hk⟩ : ∃ k, n.toNat = chs.length + (k + 1) := ⟨n.toNat - chs.length - 1, by omega⟩
  have h1 := unpackLoop_filled (n := n) (md := md) (m := m) hi [] chs (fun p hp => L.decompress_compress _ _ _ (e2 p hp)) false [] 0 []
    (fun h => by cases h)
  have hnext := (filled_start_get (impl := impl) (n := n) (md := md) (m := m) (cs := chs.map (·.1)) chs.length).2 (by simp) (by omega)
  refine ⟨.holding false (chs.map (·.2)) 0, ?_, rfl⟩
  unfold unpack
  show unpackLoop _ _ n.toNat 0 _ = _
  rw [hk, unpackLoop_split]
  simp only [List.nil_append, List.append_nil, List.length_nil, Nat.zero_sub] at h1
  rw [show (PlainMemSink.new none) = .holding false [] 0 from rfl, Proc.bind_of_ok h1]
  show unpackLoop _ _ (k + 1) (0 + chs.length) _ = _
  rw [Nat.zero_add]
  unfold unpackLoop
  have e1 : Proc.onFst (τ := PlainMemSink) ((compressedMemorySource ((MemSink.start impl n md m).filled []
      (chs.map (·.1)))).next chs.length) ((), .holding false (chs.map (·.2)) 0) =
        (.error .typeError, ((), .holding false (chs.map (·.2)) 0)) := by
    rw [hnext]; rfl
  rw [Proc.bind_of_error e1]

/-- C80, a receiving sink with `k` slots: with fewer slots than chunks unpacking is an error (`IndexError`) and the sink
holds the first `k` chunks; with at least as many it succeeds, and the slots not needed stay empty. -/
theorem C80_slots (E : Env μ) (L : E.Laws) (chunks : List Bytes) (c l : Int) (md : Option μ) (a : BloscArgs) (b : BloscpackArgs)
    (m m' : MetadataArgs) (s0 s : MemSink μ) (k : Nat)
    (h : pack E (plainMemorySource chunks) (compressedMemorySink E) chunks.length c l md a b m s0 = (.ok m', s)) :
    ∃ t, unpack (compressedMemorySource s) (plainMemorySinkPut E) ((), .new (some k)) =
        (if k < chunks.length then .error .indexError else .ok (), ((), t)) ∧
      t.chunks = (chunks.take k).map some ++ List.replicate (k - chunks.length) none := by
  obtain ⟨impl, chs, hi, rfl, e2, -, rfl⟩ := pack_mem_short (by simp) h
  have hd : ∀ p ∈ chs, E.decompress p.1 = .ok p.2 := fun p hp => L.decompress_compress _ _ _ (e2 p hp)
  have hnew : PlainMemSink.new (some (k : Int)) = .holding true [] k := by simp [PlainMemSink.new, PlainMemSink.holding]
  have hn : (((chs.map (·.2)).length : Int)).toNat = chs.length := by simp
  unfold unpack
  rw [hnew]
  show ∃ t, unpackLoop _ _ (((chs.map (·.2)).length : Int)).toNat 0 _ = _ ∧ _
  rw [hn]
  simp only [List.length_map]
  by_cases hk : k < chs.length
  · rw [if_pos hk]
    obtain ⟨r, hr⟩ : ∃ r, chs.length = k + (r + 1) := ⟨chs.length - k - 1, by omega⟩
    have h1 := unpackLoop_filled (n := (chs.length : Int)) (md := md) (m := m) hi [] (chs.take k) (fun p hp => hd p (List.take_subset _ _ hp)) true [] k
      (chs.drop k) (fun _ => by simp; omega)
    simp only [List.nil_append, List.take_append_drop, List.length_nil, List.length_take, Nat.min_eq_left (Nat.le_of_lt hk), Nat.sub_self] at h1
    refine ⟨.holding true ((chs.take k).map (·.2)) 0, ?_, ?_⟩
    · have hsp := unpackLoop_split (compressedMemorySource ((MemSink.start impl (chs.length : Int) md m).filled [] (chs.map (·.1))))
        (plainMemorySinkPut E) k (r + 1) 0 ((), .holding true [] k)
      rw [← hr] at hsp
      refine hsp.trans ?_
      rw [Proc.bind_of_ok h1, Nat.zero_add]
      unfold unpackLoop
      have hget : chs[k]? = some chs[k] := List.getElem?_eq_getElem hk
      have hnext := (filled_start_get (impl := impl) (n := (chs.length : Int)) (md := md) (m := m) (cs := chs.map (·.1)) k).1
        chs[k].1 (by simp [hget])
      have e1 : Proc.onFst (τ := PlainMemSink) ((compressedMemorySource ((MemSink.start impl (chs.length : Int) md m).filled []
          (chs.map (·.1)))).next k) ((), .holding true ((chs.take k).map (·.2)) 0) =
            (.ok (chs[k].1, some (doChecksum impl chs[k].1)), ((), .holding true ((chs.take k).map (·.2)) 0)) := by
        rw [hnext]; rfl
      rw [Proc.bind_of_ok e1]
      have e2' : checkDigest impl chs[k].1 (some (doChecksum impl chs[k].1)) = .ok () := by
        rw [doChecksum_eq hi]
        simp [checkDigest]
      rw [Proc.bind_of_ok (Proc.ofExcept_apply _ _ |>.trans (by rw [show (compressedMemorySource _).checksumImpl = impl from rfl, e2']))]
      have e3 : Proc.onSnd (τ := Unit) (plainMemorySinkPut E chs[k].1) ((), .holding true ((chs.take k).map (·.2)) 0) =
          (.error .indexError, ((), .holding true ((chs.take k).map (·.2)) 0)) := by
        simp only [Proc.onSnd]
        unfold plainMemorySinkPut
        rw [Proc.bind_of_ok (Proc.ofExcept_apply _ _ |>.trans (by rw [hd _ (List.getElem_mem hk)])), Proc.bind_of_ok (Proc.get_apply _)]
        rw [if_pos (show (PlainMemSink.holding true ((chs.take k).map (·.2)) 0).have_chunks = true from rfl), if_neg (by simp [PlainMemSink.holding])]
        rfl
      rw [Proc.bind_of_error e3]
    · simp [PlainMemSink.holding, show k - chs.length = 0 by omega]
  · rw [if_neg hk]
    have h1 := unpackLoop_filled (n := (chs.length : Int)) (md := md) (m := m) hi [] chs hd true [] k [] (fun _ => by omega)
    simp only [List.nil_append, List.append_nil, List.length_nil] at h1
    refine ⟨_, h1, ?_⟩
    rw [List.take_of_length_le (by simpa using Nat.le_of_not_lt hk)]
    simp [PlainMemSink.holding]

/-- three chunks into sinks with two and with four slots (`C80_slots`) -/
example :
    (unpack (compressedMemorySource (pack Toy.env (plainMemorySource [[1, 2], [3, 4], [5]]) (compressedMemorySink Toy.env) 3 2 1 none {} {} {} {}).2)
      (plainMemorySinkPut Toy.env) ((), .new (some 2))).2.2.chunks = [some [1, 2], some [3, 4]] ∧
    (unpack (compressedMemorySource (pack Toy.env (plainMemorySource [[1, 2], [3, 4], [5]]) (compressedMemorySink Toy.env) 3 2 1 none {} {} {} {}).2)
      (plainMemorySinkPut Toy.env) ((), .new (some 4))).2.2.chunks = [some [1, 2], some [3, 4], some [5], none] := by
  decide +kernel

end Bloscpack
