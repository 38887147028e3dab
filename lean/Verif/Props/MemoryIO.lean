import Verif.Props.RoundTrip
import Verif.Model.MemoryIO
/-
C31: sources and sinks in memory against those on files.
-/
namespace Bloscpack
variable {μ σ : Type}

/-! ### packing into memory -/

theorem Proc.pure_bind' {α β : Type} (x : α) (f : α → Proc σ β) (s : σ) : (Proc.pure x >>= f) s = f x s := rfl

/-- the sink after the chunks `cs` were put at the positions after `pre` -/
def MemSink.filled (s : MemSink μ) (pre : List Bytes) (cs : List Bytes) : MemSink μ :=
  { s with chunks := (pre ++ cs).map some ++ s.chunks.drop (pre.length + cs.length),
           checksums := (pre ++ cs).map (fun c => some (doChecksum s.impl c)) ++ s.checksums.drop (pre.length + cs.length) }

theorem set_filled {α : Type} (l : List (Option α)) (p : List (Option α)) (x : Option α) (h : p.length < l.length) :
    (p ++ l.drop p.length).set p.length x = p ++ [x] ++ l.drop (p.length + 1) := by
  rw [List.set_append_right _ _ (by omega), Nat.sub_self, List.append_assoc]
  congr 1
  rw [List.drop_eq_getElem_cons h, List.set_cons_zero]
  rfl

theorem packLoop_mem {E : Env μ} (a : BloscArgs) (ds : List Bytes) (s : MemSink μ) (pre : List Bytes)
    (hl : s.checksums.length = s.chunks.length) (hb : pre.length + ds.length ≤ s.chunks.length) :
    (∃ chs : List (Bytes × Bytes), chs.map (·.2) = ds ∧ (∀ p ∈ chs, E.compress p.2 a = .ok p.1) ∧
      packLoop E (compressedMemorySink E) a pre.length ds (s.filled pre []) = (.ok (), s.filled pre (chs.map (·.1)))) ∨
    (∃ (chs : List (Bytes × Bytes)) (d : Bytes) (rest : List Bytes) (e : Err) (s' : MemSink μ), chs.map (·.2) ++ d :: rest = ds ∧
      (∀ p ∈ chs, E.compress p.2 a = .ok p.1) ∧ E.compress d a = .error e ∧
      packLoop E (compressedMemorySink E) a pre.length ds (s.filled pre []) = (.error e, s')) := by
  induction ds generalizing pre with
  | nil => exact .inl ⟨[], rfl, nofun, rfl⟩
  | cons d ds ih =>
    simp only [List.length_cons] at hb
    unfold packLoop
    cases hc : E.compress d a with
    | error e =>
      refine .inr ⟨[], d, ds, e, s.filled pre [], rfl, nofun, hc, ?_⟩
      rw [Proc.bind_of_error (Proc.ofExcept_apply _ _)]
    | ok c =>
      rw [Proc.bind_of_ok (Proc.ofExcept_apply _ _)]
      have hput : (compressedMemorySink E).put pre.length c (s.filled pre []) = (.ok (), s.filled (pre ++ [c]) []) := by
        have h1 : pre.length < (s.filled pre []).chunks.length := by
          show _ < (_ ++ _ : List (Option Bytes)).length
          simp; omega
        show (Proc.get >>= _) (s.filled pre []) = _
        rw [Proc.bind_of_ok (Proc.get_apply _), if_pos h1]
        have e1 := set_filled s.chunks (pre.map some) (some c) (by simp; omega)
        have e2 := set_filled s.checksums (pre.map fun c => some (doChecksum s.impl c)) (some (doChecksum s.impl c)) (by simp; omega)
        simp only [List.length_map] at e1 e2
        simp only [Proc.modify, MemSink.filled, List.append_nil, List.length_nil, Nat.add_zero, e1, e2, List.map_append,
          List.length_append, List.length_singleton, List.map_cons, List.map_nil]
      rw [Proc.bind_of_ok hput]
      have := ih (pre ++ [c]) (by simp; omega)
      simp only [List.length_append, List.length_singleton] at this
      have hfill : ∀ cs, s.filled (pre ++ [c]) cs = s.filled pre (c :: cs) := by
        intro cs
        simp [MemSink.filled, Nat.add_assoc, Nat.add_comm 1]
      rcases this with ⟨chs, h1, h2, h3⟩ | ⟨chs, d', rest, e, s', h1, h2, h3, h4⟩
      · refine .inl ⟨(c, d) :: chs, by simp [h1], ?_, by rw [h3, hfill]; rfl⟩
        intro p hp
        rcases List.mem_cons.1 hp with rfl | hp
        · exact hc
        · exact h2 p hp
      · refine .inr ⟨(c, d) :: chs, d', rest, e, s', by simp [h1], ?_, h3, h4⟩
        intro p hp
        rcases List.mem_cons.1 hp with rfl | hp
        · exact hc
        · exact h2 p hp

/-- the sink a packing run leaves behind -/
def MemSink.packed (impl : Hash) (n : Int) (md : Option μ) (m : MetadataArgs) (cs : List Bytes) : MemSink μ :=
  { impl := impl, nchunks := n, chunks := cs.map some, checksums := cs.map (fun c => some (doChecksum impl c)), metadata := md,
    metadata_args := md.map (fun _ => m) }

theorem pack_mem {E : Env μ} (src : PlainSource) (n c l : Int) (md : Option μ) (a : BloscArgs) (b : BloscpackArgs)
    (m : MetadataArgs) (items : List Bytes) (hsrc : src c l n = ⟨items, none⟩) (hlen : items.length = n.toNat) (s0 : MemSink μ) :
    (∃ e, packHeader n c l md a b = .error e ∧ pack E src (compressedMemorySink E) n c l md a b m s0 = (.error e, s0)) ∨
    ∃ h impl, packHeader n c l md a b = .ok h ∧ h.checksumImpl E = .ok impl ∧
      ((∃ chs : List (Bytes × Bytes), chs.map (·.2) = items ∧ (∀ p ∈ chs, E.compress p.2 a = .ok p.1) ∧
          pack E src (compressedMemorySink E) n c l md a b m s0 = (.ok m, .packed impl n md m (chs.map (·.1)))) ∨
       (∃ (chs : List (Bytes × Bytes)) (d : Bytes) (rest : List Bytes) (e : Err) (s' : MemSink μ), chs.map (·.2) ++ d :: rest = items ∧
          (∀ p ∈ chs, E.compress p.2 a = .ok p.1) ∧ E.compress d a = .error e ∧
          pack E src (compressedMemorySink E) n c l md a b m s0 = (.error e, s'))) := by
  unfold pack
  cases hph : packHeader n c l md a b with
  | error e =>
    refine .inl ⟨e, rfl, ?_⟩
    rw [Proc.bind_of_error (Proc.ofExcept_apply _ _)]
  | ok h =>
    right
    obtain ⟨hok, -, -, -, -, -, -, -, hnch, -⟩ := packHeader_ok hph
    obtain ⟨impl, himpl, -, -⟩ := checksumLookup_of (hl := E.hashlib) hok.2.1
    have himpl' : h.checksumImpl E = .ok impl := himpl
    refine ⟨h, impl, rfl, himpl', ?_⟩
    rw [Proc.bind_of_ok (Proc.ofExcept_apply _ _)]
    have h1 : (compressedMemorySink E).configure a h s0 =
        (.ok (), { impl := impl, nchunks := n, chunks := List.replicate n.toNat none, checksums := List.replicate n.toNat none }) := by
      show (Proc.ofExcept (h.checksumImpl E) >>= _) _ = _
      rw [Proc.bind_of_ok (Proc.ofExcept_apply _ _ |>.trans (by rw [himpl'])), hnch]
      rfl
    rw [Proc.bind_of_ok h1]
    have h2 : (compressedMemorySink E).writeBloscpackHeader = Proc.pure () := rfl
    rw [h2, Proc.pure_bind']
    have h3 : ∀ s : MemSink μ, s.metadata = none → s.metadata_args = none → packMetadata (compressedMemorySink E) md m s =
        (.ok m, { s with metadata := md, metadata_args := md.map (fun _ => m) }) := by
      intro s e1 e2
      cases md with
      | none => obtain ⟨_, _, _, _, _, _⟩ := s; cases e1; cases e2; rfl
      | some x => rfl
    rw [Proc.bind_of_ok (h3 _ rfl rfl)]
    have h4 : (compressedMemorySink E).initOffsets = Proc.pure () := rfl
    rw [h4, Proc.pure_bind']
    simp only [hsrc]
    have h5 := packLoop_mem (E := E) a items
      { impl := impl, nchunks := n, chunks := List.replicate n.toNat none, checksums := List.replicate n.toNat none,
        metadata := md, metadata_args := md.map (fun _ => m) } [] (by simp) (by simp [hlen])
    have hstart : ∀ s : MemSink μ, s.filled [] [] = s := fun _ => rfl
    rw [hstart, List.length_nil] at h5
    rcases h5 with ⟨chs, e1, e2, h5⟩ | ⟨chs, d, rest, e, s', e1, e2, e3, h5⟩
    · refine .inl ⟨chs, e1, e2, ?_⟩
      rw [Proc.bind_of_ok h5]
      have h6 : (compressedMemorySink E).finalize = Proc.pure () := rfl
      rw [h6, Proc.pure_bind']
      have : chs.length = n.toNat := by rw [← hlen, ← e1, List.length_map]
      simp [Proc.pure, MemSink.filled, MemSink.packed, this]
    · refine .inr ⟨chs, d, rest, e, s', e1, e2, e3, ?_⟩
      rw [Proc.bind_of_error h5]

/-! ### unpacking from memory -/

theorem compressedMemorySource_next {impl : Hash} {n : Int} {md : Option μ} {m : MetadataArgs} {cs : List Bytes} (i : Nat) (c : Bytes)
    (h : cs[i]? = some c) : (compressedMemorySource (MemSink.packed impl n md m cs)).next i =
      Proc.pure (c, some (doChecksum impl c)) := by
  simp [compressedMemorySource, MemSink.packed, h]

/-- state of a plain memory sink holding `ds`, with `room` further slots if it was preallocated -/
def PlainMemSink.holding (pre : Bool) (ds : List Bytes) (room : Nat) : PlainMemSink :=
  if pre then { have_chunks := true, chunks := ds.map some ++ List.replicate room none, i := ds.length }
  else { have_chunks := false, chunks := ds.map some }

theorem plainMem_put {E : Env μ} {c d : Bytes} (hc : E.decompress c = .ok d) (pre : Bool) (ds : List Bytes) (room : Nat)
    (hr : 0 < room) : plainMemorySinkPut E c (.holding pre ds room) = (.ok (), .holding pre (ds ++ [d]) (room - 1)) := by
  unfold plainMemorySinkPut
  rw [Proc.bind_of_ok (Proc.ofExcept_apply _ _ |>.trans (by rw [hc])), Proc.bind_of_ok (Proc.get_apply _)]
  cases pre with
  | false => simp [PlainMemSink.holding, Proc.modify]
  | true =>
    obtain ⟨r, rfl⟩ : ∃ r, room = r + 1 := ⟨room - 1, by omega⟩
    have h1 : (PlainMemSink.holding true ds (r + 1)).i < (PlainMemSink.holding true ds (r + 1)).chunks.length := by
      simp [PlainMemSink.holding]
    rw [if_pos (show (PlainMemSink.holding true ds (r + 1)).have_chunks = true from rfl), if_pos h1]
    simp only [Proc.modify, PlainMemSink.holding, if_pos, List.map_append, List.length_append, List.length_singleton]
    rw [List.set_append_right _ _ (by simp)]
    simp [List.replicate_succ]

theorem unpackLoop_mem {E : Env μ} (L : E.Laws) {impl : Hash} (hi : impl ∈ checksums E.hashlib) {n : Int} {md : Option μ}
    {m : MetadataArgs} (done chs : List (Bytes × Bytes)) (hch : ∀ p ∈ chs, E.decompress p.1 = .ok p.2) (pre : Bool) (ds : List Bytes)
    (room : Nat) (hr : chs.length ≤ room) :
    unpackLoop (compressedMemorySource (MemSink.packed impl n md m ((done ++ chs).map (·.1)))) (plainMemorySinkPut E) chs.length
      done.length ((), .holding pre ds room) = (.ok (), ((), .holding pre (ds ++ chs.map (·.2)) (room - chs.length))) := by
  induction chs generalizing done ds room with
  | nil => simp [unpackLoop, Proc.pure]
  | cons p ps ih =>
    simp only [List.length_cons] at hr ⊢
    unfold unpackLoop
    have hn := compressedMemorySource_next (μ := μ) (impl := impl) (n := n) (md := md) (m := m)
      (cs := (done ++ p :: ps).map (·.1)) done.length p.1 (by simp)
    have e1 : Proc.onFst (τ := PlainMemSink) ((compressedMemorySource (MemSink.packed impl n md m ((done ++ p :: ps).map (·.1)))).next
        done.length) ((), .holding pre ds room) = (.ok (p.1, some (doChecksum impl p.1)), ((), .holding pre ds room)) := by
      rw [hn]; rfl
    rw [Proc.bind_of_ok e1]
    have e2 : checkDigest impl p.1 (some (doChecksum impl p.1)) = .ok () := by
      rw [doChecksum_eq hi]
      simp [checkDigest]
    rw [Proc.bind_of_ok (Proc.ofExcept_apply _ _ |>.trans (by rw [show (compressedMemorySource _).checksumImpl = impl from rfl, e2]))]
    have e3 : Proc.onSnd (τ := Unit) (plainMemorySinkPut E p.1) ((), .holding pre ds room) =
        (.ok (), ((), .holding pre (ds ++ [p.2]) (room - 1))) := by
      simp only [Proc.onSnd]
      rw [plainMem_put (hch p List.mem_cons_self) _ _ _ (by omega)]
    rw [Proc.bind_of_ok e3]
    have := ih (done ++ [p]) (fun q hq => hch q (List.mem_cons_of_mem _ hq)) (ds ++ [p.2]) (room - 1) (by omega)
    simp only [List.append_assoc, List.singleton_append, List.length_append, List.length_singleton] at this
    rw [this]
    simp [Nat.sub_sub, Nat.add_comm]

theorem unpack_mem {E : Env μ} (L : E.Laws) {impl : Hash} (hi : impl ∈ checksums E.hashlib) {n : Int} {md : Option μ}
    {m : MetadataArgs} (chs : List (Bytes × Bytes)) (hch : ∀ p ∈ chs, E.decompress p.1 = .ok p.2) (hn : chs.length = n.toNat)
    (slots : Option Int) (hs : slots = none ∨ slots = some n) :
    ∃ t, unpack (compressedMemorySource (MemSink.packed impl n md m (chs.map (·.1)))) (plainMemorySinkPut E) ((), .new slots) =
      (.ok (), ((), t)) ∧ t.chunks = chs.map (fun p => some p.2) := by
  unfold unpack
  rw [show (compressedMemorySource (MemSink.packed impl n md m (chs.map (·.1)))).nchunks.toNat = chs.length from hn.symm]
  rcases hs with rfl | rfl
  · have := unpackLoop_mem (n := n) (md := md) (m := m) L hi [] chs hch false [] chs.length (Nat.le_refl _)
    refine ⟨_, this, ?_⟩
    simp [PlainMemSink.holding]
  · have := unpackLoop_mem (n := n) (md := md) (m := m) L hi [] chs hch true [] chs.length (Nat.le_refl _)
    have hnew : PlainMemSink.new (some n) = PlainMemSink.holding true [] chs.length := by
      simp [PlainMemSink.new, PlainMemSink.holding, hn]
    rw [hnew]
    refine ⟨_, this, ?_⟩
    simp [PlainMemSink.holding]

theorem chunks_unique {E : Env μ} {a : BloscArgs} (A B : List (Bytes × Bytes)) (h : A.map (·.2) = B.map (·.2))
    (hA : ∀ p ∈ A, E.compress p.2 a = .ok p.1) (hB : ∀ p ∈ B, E.compress p.2 a = .ok p.1) : A = B := by
  induction A generalizing B with
  | nil =>
    cases B with
    | nil => rfl
    | cons => cases h
  | cons p ps ih =>
    cases B with
    | nil => cases h
    | cons q qs =>
      simp only [List.map_cons, List.cons.injEq] at h
      rw [ih qs h.2 (fun p hp => hA p (List.mem_cons_of_mem _ hp)) (fun p hp => hB p (List.mem_cons_of_mem _ hp))]
      have e2 := hA p List.mem_cons_self
      have e3 := hB q List.mem_cons_self
      rw [h.1, e3] at e2
      simp only [Except.ok.injEq] at e2
      exact congrArg (· :: qs) (Prod.ext e2.symm h.1)

theorem records_zip {hl : String → Bytes → Bytes} {impl : Hash} (hi : impl ∈ checksums hl) (chs : List (Bytes × Bytes)) :
    Spec.records impl.function (chs.map (·.1)) =
      (List.zipWith (· ++ ·) (chs.map (·.1)) (chs.map (fun p => doChecksum impl p.1))).flatten := by
  induction chs with
  | nil => rfl
  | cons p ps ih => rw [List.map_cons, records_cons, ih, ← doChecksum_eq hi]; rfl

/-! ### C31 -/

/-- C31, lists of chunks in memory: packing the chunks `chunks` into a `CompressedMemorySink` and unpacking the
corresponding `CompressedMemorySource` gives back these chunks and the metadata, whether or not the receiving
`PlainMemorySink` was told how many chunks to expect. -/
theorem C31_memory_roundtrip (E : Env μ) (L : E.Laws) (chunks : List Bytes) (c l : Int) (md : Option μ) (a : BloscArgs)
    (b : BloscpackArgs) (m m' : MetadataArgs) (s0 s : MemSink μ)
    (h : pack E (plainMemorySource chunks) (compressedMemorySink E) chunks.length c l md a b m s0 = (.ok m', s)) :
    s.metadata = md ∧ ∀ slots, slots = none ∨ slots = some (chunks.length : Int) →
      ∃ t, unpack (compressedMemorySource s) (plainMemorySinkPut E) ((), .new slots) = (.ok (), ((), t)) ∧
        t.chunks = chunks.map some := by
  rcases pack_mem (E := E) (plainMemorySource chunks) chunks.length c l md a b m chunks rfl (by simp) s0 with
    ⟨e, -, h1⟩ | ⟨hd, impl, -, hi, ⟨chs, h1, h2, h3⟩ | ⟨_, _, _, e, _, -, -, -, h1⟩⟩
  · rw [h1] at h; cases h
  · rw [h3] at h
    cases h
    refine ⟨rfl, fun slots hs => ?_⟩
    obtain ⟨t, ht, ht2⟩ := unpack_mem (n := chunks.length) (md := md) (m := m) L (checksumLookup_mem hi).1 chs (fun p hp => L.decompress_compress _ _ _ (h2 p hp))
      (by rw [Int.toNat_natCast, ← h1, List.length_map]) slots hs
    refine ⟨t, ht, ?_⟩
    rw [ht2, ← h1, List.map_map]
    rfl
  · rw [h1] at h; cases h

/-- C31, memory against file: whenever packing `data` into a file (an in-memory file or not) succeeds, packing it into
a `CompressedMemorySink` with the same arguments succeeds too; the compressed chunks and digests it holds are those in
the file, in order, at its end; and unpacking it yields the data and metadata that unpacking the file yields. -/
theorem C31_memory_as_file (E : Env μ) (L : E.Laws) (data : Bytes) (cs : ChunkSizeArg) (md : Option μ) (a : BloscArgs)
    (b : BloscpackArgs) (m : MetadataArgs) (out : Bytes) (s0 : MemSink μ) (h : packBytesToBytes E data cs md a b m = .ok out) :
    ∃ n c l m' s, calculateNchunks data.length cs = .ok (n, c, l) ∧
      pack E (plainFPSource { data := data }) (compressedMemorySink E) n c l md a b m s0 = (.ok m', s) ∧
      (∃ (chunks digests : List Bytes) (front : Bytes), s.chunks = chunks.map some ∧ s.checksums = digests.map some ∧ chunks.length = digests.length ∧
        out = front ++ (List.zipWith (· ++ ·) chunks digests).flatten) ∧
      ∃ t, unpack (compressedMemorySource s) (plainMemorySinkPut E) ((), .new none) = (.ok (), ((), t)) ∧
        ∃ chunks : List Bytes, t.chunks = chunks.map some ∧ unpackBytesFromBytes E out = .ok (chunks.flatten, s.metadata) := by
  have hrt := C01_roundtrip E L _ _ _ _ _ _ _ h
  obtain ⟨F, n, c, l, m', rfl, h1, hj, hd, -, -, h5, h6, h7⟩ := packBytesToBytes_ok L h
  obtain ⟨init, tl, g1, g2, g3, g4, g5, g6, g7⟩ := calculate_items h5
  have hlen : (init ++ [tl]).length = n.toNat := by simp; omega
  have hit : (F.chunks.map (·.2)) = init ++ [tl] := by
    obtain ⟨-, -, -, -, -, -, e2, e3, e1, -⟩ := packHeader_ok h6
    have hn := h1.nchunks
    obtain ⟨init', p, k1, k2, k3⟩ := h1.lengths
    rw [k1] at hn
    rw [List.eq_iff_flatten_eq]
    refine ⟨by rw [g5, ← hd]; rfl, ?_⟩
    rw [k1]
    have hx : ∀ (L : List Bytes) (k : Nat), L.length = k → (∀ x ∈ L, (x.length : Int) = c) → L.map List.length = List.replicate k c.toNat := by
      intro L k hk hL
      rw [List.eq_replicate_iff]
      refine ⟨by simp [hk], fun b hb => ?_⟩
      obtain ⟨x, hx, rfl⟩ := List.mem_map.1 hb
      have := hL x hx
      omega
    simp only [List.map_append, List.map_cons, List.map_nil]
    rw [hx (init'.map (·.2)) (n - 1).toNat (by simp at hn ⊢; omega) (by
        intro x hx; obtain ⟨q, hq, rfl⟩ := List.mem_map.1 hx; rw [← e2]; exact k2 q hq),
      hx init (n - 1).toNat (by omega) g3, show p.2.length = tl.length by omega]
  rcases pack_mem (E := E) (plainFPSource { data := data }) n c l md a b m (init ++ [tl]) g1 hlen s0 with
    ⟨e, hx, -⟩ | ⟨hd', impl, hh, hi, ⟨chs, k1, k2, k3⟩ | ⟨chs, d, rest, e, _, k1, -, k2, -⟩⟩
  · rw [h6] at hx; cases hx
  · rw [h6] at hh; cases hh
    have hchs : chs = F.chunks := by
      have e1 : chs.map (·.2) = F.chunks.map (·.2) := by rw [k1, hit]
      exact chunks_unique _ _ e1 k2 h7
    subst hchs
    have hmem := (checksumLookup_mem hi).1
    obtain ⟨t, ht, ht2⟩ := unpack_mem (n := n) (md := md) (m := m) L hmem F.chunks
      (fun p hp => L.decompress_compress _ _ _ (h7 p hp)) (by rw [← hlen, ← hit, List.length_map]) none (.inl rfl)
    refine ⟨n, c, l, m, _, h5, k3, ⟨F.chunks.map (·.1), F.chunks.map (fun p => doChecksum impl p.1), F.front E, rfl, ?_, by simp, ?_⟩, t, ht,
      F.chunks.map (·.2), by rw [ht2, List.map_map]; rfl, ?_⟩
    · simp [MemSink.packed]
    · have himpl : F.impl E = impl := by simp [File.impl, hi]
      unfold File.bytes File.body
      rw [hj, List.append_nil, himpl]
      rw [records_zip hmem]
    · rw [hrt, ← hd]; rfl
  · obtain ⟨p, hp, hp2⟩ : ∃ p ∈ F.chunks, p.2 = d := by
      have : d ∈ F.chunks.map (·.2) := by rw [hit, ← k1]; simp
      simpa using this
    have := h7 p hp
    rw [hp2, k2] at this
    cases this

/-- C31, lists of chunks against files as sources: if all chunks but the last have `c` bytes and the last has `l`, then
packing from the list and packing from a file holding their concatenation do exactly the same, whatever the sink. -/
theorem C31_sources_agree (E : Env μ) (sink : CompressedSink μ σ) (init : List Bytes) (tl : Bytes) (c : Nat)
    (hc : ∀ x ∈ init, x.length = c) (md : Option μ) (a : BloscArgs) (b : BloscpackArgs) (m : MetadataArgs) (s : σ) :
    pack E (plainMemorySource (init ++ [tl])) sink (init.length + 1) c tl.length md a b m s =
      pack E (plainFPSource { data := (init ++ [tl]).flatten }) sink (init.length + 1) c tl.length md a b m s := by
  have : plainFPSource { data := (init ++ [tl]).flatten } c tl.length (init.length + 1) =
      plainMemorySource (init ++ [tl]) c tl.length (init.length + 1) := by
    obtain ⟨init', tl', s', h1, h2, h3, h4, h5⟩ := readMany_chunks c tl.length init.length [] (init ++ [tl]).flatten [] (by
      have hx : init.map List.length = List.replicate init.length c := by
        rw [List.eq_replicate_iff]
        refine ⟨by simp, fun b hb => ?_⟩
        obtain ⟨x, hx, rfl⟩ := List.mem_map.1 hb
        exact hc x hx
      rw [List.length_flatten, List.map_append, hx]
      simp)
    unfold plainFPSource plainMemorySource
    have hz : ({ data := (init ++ [tl]).flatten } : FP) = Z [] (init ++ [tl]).flatten [] := rfl
    rw [hz, show ((init.length : Int) + 1 - 1).toNat = init.length by omega, h1]
    have : init' ++ [tl'] = init ++ [tl] := by
      rw [List.eq_iff_flatten_eq]
      refine ⟨h5, ?_⟩
      simp only [List.map_append, List.map_cons, List.map_nil, h4]
      congr 1
      rw [show init'.map List.length = List.replicate init.length c by
        rw [List.eq_replicate_iff]
        refine ⟨by simp [h2], fun b hb => ?_⟩
        obtain ⟨x, hx, rfl⟩ := List.mem_map.1 hb
        exact h3 x hx]
      symm
      rw [List.eq_replicate_iff]
      refine ⟨by simp, fun b hb => ?_⟩
      obtain ⟨x, hx, rfl⟩ := List.mem_map.1 hb
      exact hc x hx
    rw [this]
  unfold pack
  rw [this]

/-- the bytes held by a plain sink in memory -/
def PlainMemSink.bytes (t : PlainMemSink) : Bytes := (t.chunks.filterMap id).flatten

/-- C31, plain sinks: unpacking any source, in any state, into a file and into a growing `PlainMemorySink` has the same
outcome, leaves the source in the same state and produces the same bytes, also when it fails half way. -/
theorem C31_plain_sinks_agree (E : Env μ) (src : CompressedSource σ) (s : σ) :
    let f := unpack src (plainFPSinkPut E) (s, { data := [] })
    let r := unpack src (plainMemorySinkPut E) (s, .new none)
    r.1 = f.1 ∧ r.2.1 = f.2.1 ∧ r.2.2.bytes = f.2.2.data := by
  have put : ∀ (c : Bytes) (ds : List Bytes) (lo),
      (∃ e, plainFPSinkPut E c (Z ds.flatten [] lo) = (.error e, Z ds.flatten [] lo) ∧
        plainMemorySinkPut E c ⟨false, ds.map some, 0⟩ = (.error e, ⟨false, ds.map some, 0⟩)) ∨
      (∃ d lo', plainFPSinkPut E c (Z ds.flatten [] lo) = (.ok (), Z (ds ++ [d]).flatten [] lo') ∧
        plainMemorySinkPut E c ⟨false, ds.map some, 0⟩ = (.ok (), ⟨false, (ds ++ [d]).map some, 0⟩)) := by
    intro c ds lo
    unfold plainFPSinkPut plainMemorySinkPut
    cases hd : E.decompress c with
    | error e => exact .inl ⟨e, rfl, rfl⟩
    | ok d =>
      refine .inr ⟨d, lo ++ [(ds.flatten.length, d)], ?_, ?_⟩
      · rw [Proc.bind_of_ok (Proc.ofExcept_apply _ _), fpWrite_Z]
        simp
      · rw [Proc.bind_of_ok (Proc.ofExcept_apply _ _)]
        simp [Proc.get, Proc.modify, bind, Proc.bind]
  have loop : ∀ (fuel i : Nat) (s : σ) (ds : List Bytes) (lo),
      ∃ (ds' : List Bytes) (lo' : List (Nat × Bytes)), (unpackLoop src (plainFPSinkPut E) fuel i (s, Z ds.flatten [] lo)).2.2 = Z ds'.flatten [] lo' ∧
        unpackLoop src (plainMemorySinkPut E) fuel i (s, ⟨false, ds.map some, 0⟩) =
          ((unpackLoop src (plainFPSinkPut E) fuel i (s, Z ds.flatten [] lo)).1,
           (unpackLoop src (plainFPSinkPut E) fuel i (s, Z ds.flatten [] lo)).2.1, ⟨false, ds'.map some, 0⟩) := by
    intro fuel
    induction fuel with
    | zero => intro i s ds lo; exact ⟨ds, lo, rfl, rfl⟩
    | succ fuel ih =>
      intro i s ds lo
      unfold unpackLoop
      generalize hq : src.next i s = q
      obtain ⟨r, s'⟩ := q
      cases r with
      | error e =>
        have h1 : Proc.onFst (τ := FP) (src.next i) (s, Z ds.flatten [] lo) = (.error e, (s', Z ds.flatten [] lo)) := by
          simp [Proc.onFst, hq]
        have h2 : Proc.onFst (τ := PlainMemSink) (src.next i) (s, ⟨false, ds.map some, 0⟩) = (.error e, (s', ⟨false, ds.map some, 0⟩)) := by
          simp [Proc.onFst, hq]
        rw [Proc.bind_of_error h1, Proc.bind_of_error h2]
        exact ⟨ds, lo, rfl, rfl⟩
      | ok cd =>
        have h1 : Proc.onFst (τ := FP) (src.next i) (s, Z ds.flatten [] lo) = (.ok cd, (s', Z ds.flatten [] lo)) := by
          simp [Proc.onFst, hq]
        have h2 : Proc.onFst (τ := PlainMemSink) (src.next i) (s, ⟨false, ds.map some, 0⟩) = (.ok cd, (s', ⟨false, ds.map some, 0⟩)) := by
          simp [Proc.onFst, hq]
        rw [Proc.bind_of_ok h1, Proc.bind_of_ok h2]
        cases hk : checkDigest src.checksumImpl cd.1 cd.2 with
        | error e =>
          rw [Proc.bind_of_error (Proc.ofExcept_apply _ _), Proc.bind_of_error (Proc.ofExcept_apply _ _)]
          exact ⟨ds, lo, rfl, rfl⟩
        | ok u =>
          rw [Proc.bind_of_ok (Proc.ofExcept_apply _ _), Proc.bind_of_ok (Proc.ofExcept_apply _ _)]
          rcases put cd.1 ds lo with ⟨e, p1, p2⟩ | ⟨d, lo', p1, p2⟩
          · have h3 : Proc.onSnd (τ := σ) (plainFPSinkPut E cd.1) (s', Z ds.flatten [] lo) = (.error e, (s', Z ds.flatten [] lo)) := by
              simp only [Proc.onSnd, p1]
            have h4 : Proc.onSnd (τ := σ) (plainMemorySinkPut E cd.1) (s', ⟨false, ds.map some, 0⟩) = (.error e, (s', ⟨false, ds.map some, 0⟩)) := by
              simp only [Proc.onSnd, p2]
            rw [Proc.bind_of_error h3, Proc.bind_of_error h4]
            exact ⟨ds, lo, rfl, rfl⟩
          · have h3 : Proc.onSnd (τ := σ) (plainFPSinkPut E cd.1) (s', Z ds.flatten [] lo) = (.ok (), (s', Z (ds ++ [d]).flatten [] lo')) := by
              simp only [Proc.onSnd, p1]
            have h4 : Proc.onSnd (τ := σ) (plainMemorySinkPut E cd.1) (s', ⟨false, ds.map some, 0⟩) = (.ok (), (s', ⟨false, (ds ++ [d]).map some, 0⟩)) := by
              simp only [Proc.onSnd, p2]
            rw [Proc.bind_of_ok h3, Proc.bind_of_ok h4]
            exact ih (i + 1) s' (ds ++ [d]) lo'
  obtain ⟨ds', lo', h1, h2⟩ := loop src.nchunks.toNat 0 s [] []
  have hz : ({ data := [] } : FP) = Z ([] : List Bytes).flatten [] [] := rfl
  have hm : PlainMemSink.new none = ⟨false, ([] : List Bytes).map some, 0⟩ := rfl
  intro f r
  have hf : f = unpackLoop src (plainFPSinkPut E) src.nchunks.toNat 0 (s, Z ([] : List Bytes).flatten [] []) := rfl
  have hr : r = unpackLoop src (plainMemorySinkPut E) src.nchunks.toNat 0 (s, ⟨false, ([] : List Bytes).map some, 0⟩) := rfl
  rw [hr, h2, ← hf]
  rw [← hf] at h1
  refine ⟨rfl, rfl, ?_⟩
  rw [h1]
  simp [PlainMemSink.bytes]

/-- packing two chunks into memory succeeds, the hypothesis of `C31_memory_roundtrip`, and holds two chunks with digests -/
example : (pack Toy.env (plainMemorySource [[1, 2, 3], [4]]) (compressedMemorySink Toy.env) 2 3 1 (some 5) {} {} {} {}).1.toBool = true ∧
    (pack Toy.env (plainMemorySource [[1, 2, 3], [4]]) (compressedMemorySink Toy.env) 2 3 1 (some 5) {} {} {} {}).2.checksums.map
      (fun o => o.map List.length) = [some 4, some 4] := by
  decide +kernel

/-- packing five bytes with chunk size 2 into a file succeeds, the hypothesis of `C31_memory_as_file` -/
example : (packBytesToBytes Toy.env [1, 2, 3, 4, 5] (.int 2) (some 9) {} { max_app_chunks := .int 1 }
    { max_meta_size := .int 12 }).toBool = true := by
  decide +kernel

/-- a memory sink whose second chunk is damaged and whose third is missing -/
def Toy.halfSink : MemSink Nat :=
  { nchunks := 3, chunks := [(Toy.compress [7, 8] {}).toOption, some [1, 2], none], checksums := [none, none, none] }

/-- a source that fails after the first of three chunks leaves the first chunk in the sink (`C31_plain_sinks_agree`) -/
example : (unpack (compressedMemorySource Toy.halfSink) (plainMemorySinkPut Toy.env) ((), .new none)).1.toBool = false ∧
    (unpack (compressedMemorySource Toy.halfSink) (plainMemorySinkPut Toy.env) ((), .new none)).2.2.chunks = [some [7, 8]] := by
  decide +kernel

end Bloscpack
