import Verif.Props.AppendTorn
import Verif.Lemmas.Shared
import Verif.Spec.Shared
/-
C86: unpacking an archive while another process appends to it.
-/
namespace Bloscpack
variable {μ : Type}

/-! ### lemmas -/

theorem crashed_later {d d' : Bytes} {done todo : List (Nat × Bytes)} (h : Spec.Crashed (Spec.replay d done) todo d') :
    Spec.Crashed d (done ++ todo) d' := by
  rcases h with rfl | ⟨done', p, bs, todo', t, rfl, rfl⟩
  · rcases List.eq_nil_or_concat done with rfl | ⟨done0, w, rfl⟩
    · exact .inl rfl
    · right
      refine ⟨done0, w.1, w.2, todo, w.2.length, by simp, ?_⟩
      rw [List.take_length, List.concat_eq_append, replay_append, replay_cons, replay_nil]
  · right
    exact ⟨done ++ done', p, bs, todo', t, by simp, by rw [replay_append]⟩

theorem KeptBut.crashed {E : Env μ} {F : File μ} {init : List (Bytes × Bytes)} {d d' : Bytes} (h : KeptBut E F init d)
    {log : List (Nat × Bytes)} (hw : ∀ w ∈ log, Harmless E F init w) (hc : Spec.Crashed d log d') : KeptBut E F init d' := by
  rcases hc with rfl | ⟨done, pos, bs, todo, t, rfl, rfl⟩
  · exact h
  · exact (h.replay (fun w hm => hw w (by simp [hm]))).overlay (w := (pos, bs.take t)) (Harmless.take (hw (pos, bs) (by simp)) t)

theorem KeptBut.get {E : Env μ} {F : File μ} {init : List (Bytes × Bytes)} {d : Bytes} (h : KeptBut E F init d) :
    (∀ j, j < (F.secBytes E).length → d[32 + j]? = (F.secBytes E)[j]?) ∧
    (∀ i, i < 32 + (F.secBytes E).length + F.offsets.length → (d[i]?).isSome) ∧
    ∀ j, j < (Spec.records (F.impl E).function (init.map (·.1))).length →
      d[(F.front E).length + j]? = (Spec.records (F.impl E).function (init.map (·.1)))[j]? := by
  obtain ⟨head, offs, rest, h1, h2, rfl⟩ := h
  have hf : (F.front E).length = 32 + (F.secBytes E).length + F.offsets.length := by
    simp [File.front, BloscpackHeader.bytes_length, Nat.add_assoc]
  refine ⟨fun j hj => ?_, fun i hi => ?_, fun j hj => ?_⟩
  · rw [List.getElem?_append_right (by omega), List.getElem?_append_left (by omega)]
    congr 1; omega
  · rw [List.getElem?_eq_getElem (by simp; omega)]
    rfl
  · rw [hf, List.getElem?_append_right (by omega), List.getElem?_append_right (by omega), List.getElem?_append_right (by omega),
      List.getElem?_append_left (by omega)]
    congr 1; omega

theorem kept_shows {E : Env μ} {F : File μ} {init : List (Bytes × Bytes)} {v : Nat → Nat → Option UInt8}
    (h : ∀ k i, ∃ d, KeptBut E F init d ∧ v k i = d[i]?) :
    Shows v 32 (F.secBytes E) ∧
    (∀ k i, 32 + (F.secBytes E).length ≤ i → i < 32 + (F.secBytes E).length + F.offsets.length → (v k i).isSome) ∧
    Shows v (F.front E).length (Spec.records (F.impl E).function (init.map (·.1))) := by
  refine ⟨fun k j hj => ?_, fun k i _ hi => ?_, fun k j hj => ?_⟩
  · obtain ⟨d, h1, h2⟩ := h k (32 + j)
    rw [h2]; exact h1.get.1 j hj
  · obtain ⟨d, h1, h2⟩ := h k i
    rw [h2]; exact h1.get.2.1 i hi
  · obtain ⟨d, h1, h2⟩ := h k ((F.front E).length + j)
    rw [h2]; exact h1.get.2.2 j hj

theorem grown_valid {E : Env μ} (L : E.Laws) {F : File μ} {init : List (Bytes × Bytes)} {p : Bytes × Bytes}
    (hc : F.Conforming E) (hch : F.chunks = init ++ [p])
    {new : Bytes} {a : BloscArgs} {chs : List (Bytes × Bytes)} {q : Bytes × Bytes} {k : Int} (hg : Grown E F p new a chs q k)
    (tail O : Bytes) (hO : O.length = F.offsets.length) :
    ({ grownFile E F init (chs ++ [q]) q.2.length tail with offsets := O } : File μ).Valid E := by
  have hn : F.header.nchunks = init.length + 1 := by rw [hc.nchunks, hch]; simp
  have hl : ((chs ++ [q]).length : Int) - 1 ≤ F.header.max_app_chunks := by
    have := hg.space; have := hg.number; simp; omega
  have hcs : 0 ≤ F.header.chunk_size := by rcases hc.sizes with h | h <;> omega
  exact {
    ok := grownFile_header_ok (E := E) (init := init) (tail := tail) hc.ok (by omega) hcs (by simp) hl (by omega) hg.last_le
    version := hc.version
    meta_flag := hc.meta_flag
    sec_ok := hc.sec_ok
    offsets_len := by
      show O.length = _
      rw [hO, hc.offsets_len]
      unfold offsetsLen
      simp only [grownFile]
      congr 2
      omega
    offsets_small := by
      have := hc.offsets_small
      unfold offsetsLen at this ⊢
      simp only [grownFile]
      rw [show F.header.nchunks + (((chs ++ [q]).length : Int) - 1) + (F.header.max_app_chunks - (((chs ++ [q]).length : Int) - 1)) =
        F.header.nchunks + F.header.max_app_chunks by omega]
      exact this
    nchunks_le := by show ((init ++ (chs ++ [q])).length : Int) ≤ F.header.nchunks + ((chs ++ [q]).length - 1); simp; omega
    nchunks := by show F.header.nchunks + (((chs ++ [q]).length : Int) - 1) = ((init ++ (chs ++ [q])).length : Int); simp; omega
    chunks_ok := by
      intro r hr
      rcases List.mem_append.1 hr with h | h
      · exact hc.chunks_ok r (by rw [hch]; exact List.mem_append_left _ h)
      · exact L.decompress_compress _ _ _ (hg.comp r h) }

/-- the file before and after its header is written -/
theorem header_moment {E : Env μ} {F : File μ} {init : List (Bytes × Bytes)} {p : Bytes × Bytes}
    (hc : F.Conforming E) (ho : F.header.offsets = true) (hch : F.chunks = init ++ [p])
    {new : Bytes} {a : BloscArgs} {chs : List (Bytes × Bytes)} {q : Bytes × Bytes} {k : Int} (hg : Grown E F p new a chs q k)
    (tail : Bytes) {done todo : List (Nat × Bytes)} (hlog : grownLog E F init chs q tail = done ++ todo) :
    (∃ T, Spec.replay (headPart E F init ++ tail) done = headPart E F init ++ T) ∨
      ∃ G : File μ, G = { grownFile E F init (chs ++ [q]) q.2.length tail with offsets := F.offsets } ∧
        (∃ T, Spec.replay (headPart E F init ++ tail) done = G.header.bytes ++ T) ∧
        KeptBut E G G.chunks (Spec.replay (headPart E F init ++ tail) done) ∧ ∀ w ∈ todo, Harmless E G G.chunks w := by
  obtain ⟨offs, hparts, hoffs⟩ := grownLog_parts hc ho hch hg tail
  rw [hparts] at hlog
  rcases List.append_eq_append_iff.1 hlog with ⟨a, rfl, h4⟩ | ⟨c, h4, -⟩
  · cases a with
    | nil =>
      left
      rw [List.append_nil, replay_seqLog_over]
      exact ⟨_, rfl⟩
    | cons w a =>
      right
      simp only [List.cons_append, List.cons.injEq] at h4
      obtain ⟨rfl, h4⟩ := h4
      refine ⟨_, rfl, ?_⟩
      generalize hG : ({ grownFile E F init (chs ++ [q]) q.2.length tail with offsets := F.offsets } : File μ) = G
      have hw : ∀ w ∈ a ++ todo, w.1 = 32 + (G.secBytes E).length ∧ w.2.length ≤ G.offsets.length := by
        intro w hw
        rw [← h4] at hw
        rcases hoffs with rfl | ⟨O, rfl, hO⟩
        · cases hw
        · rw [List.mem_singleton.1 hw, ← hG]
          exact ⟨rfl, hO⟩
      have hharm : ∀ w ∈ a ++ todo, Harmless E G G.chunks w := fun w hm => .inr (.inl (hw w hm))
      rw [List.append_cons, replay_append, replay_header, hG]
      have hk0 : KeptBut E G G.chunks (G.bytes E) :=
        ⟨G.header.bytes, G.offsets, G.junk, BloscpackHeader.bytes_length _, rfl, by simp [File.bytes, File.front, File.body]⟩
      refine ⟨?_, hk0.replay (fun w hm => hharm w (by simp [hm])), fun w hm => hharm w (by simp [hm])⟩
      have hw' : ∀ w ∈ a, 32 ≤ w.1 := fun w hm => by have := (hw w (by simp [hm])).1; omega
      clear hw hharm hk0 h4 hlog hoffs
      suffices h : ∀ T, ∃ T', Spec.replay (G.header.bytes ++ T) a = G.header.bytes ++ T' by
        have := h ((G.secBytes E ++ G.offsets) ++ (G.body E ++ G.junk))
        simpa [File.bytes, File.front] using this
      induction a with
      | nil => exact fun T => ⟨T, rfl⟩
      | cons w ws ih =>
        intro T
        rw [replay_cons]
        obtain ⟨R, hR⟩ := overlay_beyond G.header.bytes T w.2 (p := w.1)
          (by rw [BloscpackHeader.bytes_length]; exact hw' w (by simp))
        rw [hR]
        exact ih (fun w hm => hw' w (by simp [hm])) R
  · obtain ⟨x, y, -, rfl⟩ := seqLog_prefix _ _ h4
    left
    rw [replay_seqLog_over]
    exact ⟨_, rfl⟩

theorem showsAt_of_front {v : Nat → Nat → Option UInt8} {h : BloscpackHeader} {d T : Bytes} (hd : d = h.bytes ++ T)
    (hv : ∀ i, i < 32 → v 0 i = d[i]?) : ShowsAt v 0 0 h.bytes := by
  intro j hj
  have h32 := h.bytes_length
  rw [Nat.zero_add, hv j (by omega), hd, List.getElem?_append_left hj]

/-- what a reader meets: the old header, and everything but the last chunk; or the new header, and all of the new chunks -/
theorem shared_cases {E : Env μ} (L : E.Laws) {F : File μ} (hc : F.Conforming E) (hnn : F.NoNull) {new : Bytes} {args : AppendArgs}
    {r : Except Err Int} {fp : FP} (hrun : appendFp E { data := new } new.length args { data := F.bytes E } = (r, fp))
    {view : Nat → Nat → Option UInt8} (hseen : Spec.Seen (F.bytes E) fp.log view) (b : Nat) :
    ∃ init p, F.chunks = init ++ [p] ∧
      ((∀ i, i < 32 → view 0 i = (F.bytes E)[i]?) ∧ Shows view 32 (F.secBytes E) ∧
        (∀ k i, 32 + (F.secBytes E).length ≤ i → i < 32 + (F.secBytes E).length + F.offsets.length → (view k i).isSome) ∧
        Shows view (F.front E).length (Spec.records (F.impl E).function (init.map (·.1))) ∨
      unpackShared E { view := view, bound := b } = (.ok F.metadata, F.data ++ new)) := by
  obtain ⟨done, todo, hlog, hhead, hbytes⟩ := hseen
  have hold : ∀ init p, F.chunks = init ++ [p] → Shows view 32 (F.secBytes E) ∧
        (∀ k i, 32 + (F.secBytes E).length ≤ i → i < 32 + (F.secBytes E).length + F.offsets.length → (view k i).isSome) ∧
        Shows view (F.front E).length (Spec.records (F.impl E).function (init.map (·.1))) := by
    intro init p hch
    refine kept_shows fun k i => ?_
    obtain ⟨d', h1, h2⟩ := hbytes k i
    have h3 := crashed_later h1
    rw [← hlog] at h3
    have h4 := C78_untouched_bytes E L F hc hnn new args r fp hrun d' h3
    rw [hch, List.dropLast_concat] at h4
    exact ⟨d', h4, h2⟩
  have hfront : ∀ init p, F.chunks = init ++ [p] → (∃ T, Spec.replay (F.bytes E) done = headPart E F init ++ T) →
      ∀ i, i < 32 → view 0 i = (F.bytes E)[i]? := by
    rintro init p hch ⟨T, hT⟩ i hi
    have h32 := F.header.bytes_length
    rw [hhead i hi, hT, File.bytes_split (E := E) hch]
    unfold headPart File.front
    simp only [List.append_assoc]
    rw [List.getElem?_append_left (by omega), List.getElem?_append_left (by omega)]
  cases ho : F.header.offsets with
  | false =>
    obtain ⟨init, p, hch, -⟩ := hc.lengths
    have h2 := append_no_offsets L hc.toPre ho { data := new } new.length args []
    rw [hrun] at h2
    have h3 : fp.log = [] := by rw [(Prod.mk.inj h2).2]; rfl
    rw [h3] at hlog
    have hb := File.bytes_split (E := E) hch
    refine ⟨init, p, hch, .inl ⟨hfront init p hch ?_, hold init p hch⟩⟩
    rw [(List.append_eq_nil_iff.1 hlog.symm).1]
    exact ⟨_, hb⟩
  | true =>
    obtain ⟨init, p, hch, hlast, h2⟩ := append_cases L hc ho hnn hrun
    refine ⟨init, p, hch, ?_⟩
    have hb := File.bytes_split (E := E) hch
    have hpref : fp.log = [] ∨ ∃ chs q k todo', Grown E F p new (args.filled F.header) chs q k ∧
        grownLog E F init chs q (p.1 ++ ((F.impl E).function p.1 ++ F.junk)) = done ++ (todo ++ todo') := by
      rcases h2 with ⟨e, -, -, hl, -⟩ | ⟨chs, q, k, hg, ⟨-, -, -, hl⟩ | ⟨-, -, -, rest, hl⟩⟩
      · exact .inl hl
      · right; exact ⟨chs, q, k, [], hg, by rw [List.append_nil, ← hlog, hl]; rfl⟩
      · right; exact ⟨chs, q, k, rest, hg, by rw [List.nil_append] at hl; rw [hl, hlog, List.append_assoc]⟩
    rcases hpref with hl | ⟨chs, q, k, todo', hg, hl⟩
    · rw [hl] at hlog
      refine .inl ⟨hfront init p hch ?_, hold init p hch⟩
      rw [(List.append_eq_nil_iff.1 hlog.symm).1]
      exact ⟨_, hb⟩
    · rw [hb] at hhead hbytes
      rcases header_moment hc ho hch hg _ hl with h3 | ⟨G, hG, ⟨T, hT⟩, hk, hw⟩
      · rw [← hb] at h3
        exact .inl ⟨hfront init p hch h3, hold init p hch⟩
      · right
        have hGv : G.Valid E := by rw [hG]; exact grown_valid L hc hch hg _ _ rfl
        obtain ⟨g1, g2, g3⟩ := kept_shows (E := E) (F := G) (init := G.chunks) (v := view) (fun k i => by
          obtain ⟨d', h5, h6⟩ := hbytes k i
          exact ⟨d', hk.crashed (fun w hm => hw w (by simp [hm])) h5, h6⟩)
        obtain ⟨k1, p1, lo, h7⟩ := unpackShared_pre L hGv.toPre (showsAt_of_front hT hhead) g1 g2 g3 b
        rw [h7, hGv.nchunks, Int.toNat_natCast, Nat.sub_self]
        have hm : G.metadata = F.metadata := by rw [hG]; rfl
        have hd : G.data = F.data ++ new := by
          rw [hG]
          show ((init ++ (chs ++ [q])).map (·.2)).flatten = _
          rw [List.map_append, List.flatten_append, hg.content, File.data, hch]
          simp
        simp [unpackLoop, Proc.pure, Except.map, hm, hd]

theorem File.Conforming.take_init {E : Env μ} {F : File μ} (hc : F.Conforming E) {init : List (Bytes × Bytes)} {p : Bytes × Bytes}
    (hch : F.chunks = init ++ [p]) : F.data.take ((F.header.nchunks - 1) * F.header.chunk_size).toNat = (init.map (·.2)).flatten := by
  obtain ⟨init0, p0, e1, e2, e3⟩ := hc.lengths
  have hp : init = init0 ∧ p = p0 := by
    rw [hch] at e1
    have := List.append_inj' e1 rfl
    simpa using this
  obtain ⟨rfl, rfl⟩ := hp
  have hn : F.header.nchunks = init.length + 1 := by rw [hc.nchunks, hch]; simp
  have hlen : ((init.map (·.2)).flatten.length : Int) = init.length * F.header.chunk_size := by
    clear hch hn e1
    induction init with
    | nil => simp
    | cons x xs ih =>
      have h1 := e2 x (by simp)
      have h2 := ih (fun q hq => e2 q (by simp [hq]))
      rw [List.map_cons, List.flatten_cons, List.length_append, List.length_cons]
      push_cast
      rw [h2, h1, Int.add_mul]
      omega
  rw [hn, show ((init.length : Int) + 1 - 1) = init.length by omega, ← hlen, Int.toNat_natCast, File.data, hch]
  simp

/-! ### theorems -/

/-- C86: a file that nobody else writes to is unpacked as ever. -/
theorem C86_alone (E : Env μ) (d : Bytes) (b : Nat) (hb : d.length ≤ b) :
    unpackShared E { view := fun _ i => d[i]?, bound := b } = unpackFrom E d := unpackShared_alone E d b hb

/-- C86: an archive that is unpacked while another process appends to it: unpacking gives the metadata, or fails, and either way the data of
all chunks but the last of the archive as it was come out unharmed. -/
theorem C86_last_chunk_only_partial (E : Env μ) (L : E.Laws) (F : File μ) (hc : F.Conforming E) (hnn : F.NoNull)
    (new : Bytes) (args : AppendArgs) (r : Except Err Int) (fp : FP)
    (hrun : appendFp E { data := new } new.length args { data := F.bytes E } = (r, fp))
    (view : Nat → Nat → Option UInt8) (hseen : Spec.Seen (F.bytes E) fp.log view) (b : Nat) :
    ∃ more,
      ((∃ e, unpackShared E { view := view, bound := b } =
        (.error e, F.data.take ((F.header.nchunks - 1) * F.header.chunk_size).toNat ++ more)) ∨
      unpackShared E { view := view, bound := b } =
        (.ok F.metadata, F.data.take ((F.header.nchunks - 1) * F.header.chunk_size).toNat ++ more)) := by
  obtain ⟨init, p, hch, h⟩ := shared_cases L hc hnn hrun hseen b
  rw [hc.take_init hch]
  rcases h with ⟨h0, h1, h2, h3⟩ | h
  · have hn : F.header.nchunks = init.length + 1 := by rw [hc.nchunks, hch]; simp
    have hG : ({ F with chunks := init } : File μ).Pre E := by
      refine ⟨hc.ok, hc.version, hc.meta_flag, hc.sec_ok, hc.offsets_len, hc.offsets_small, ?_, ?_⟩
      · show (init.length : Int) ≤ F.header.nchunks; omega
      · intro q hq; exact hc.chunks_ok q (by rw [hch]; simp [show q ∈ init from hq])
    have hb : F.bytes E = F.header.bytes ++ ((F.secBytes E ++ F.offsets) ++ (F.body E ++ F.junk)) := by simp [File.bytes, File.front]
    obtain ⟨k1, p1, lo, h4⟩ := unpackShared_pre L hG (showsAt_of_front hb h0) h1 h2 h3 b
    have hk : ({ F with chunks := init } : File μ).header.nchunks.toNat - ({ F with chunks := init } : File μ).chunks.length = 1 := by
      show F.header.nchunks.toNat - init.length = 1
      omega
    rw [h4, hk]
    rcases unpackLoop_last (E := E) (compressedFPSource F.header (F.impl E)) init.length (At view b k1 p1)
      ((init.map (·.2)).flatten) lo with ⟨e, s', h5⟩ | ⟨x, s', lo', h5⟩
    · refine ⟨[], .inl ⟨e, ?_⟩⟩
      show (Except.map _ (unpackLoop (compressedFPSource F.header (F.impl E)) (plainFPSinkPut E) 1 init.length (At view b k1 p1, _)).1, _) = _
      simp only [File.data]
      erw [h5]
      simp [Except.map]
    · refine ⟨x, .inr ?_⟩
      show (Except.map _ (unpackLoop (compressedFPSource F.header (F.impl E)) (plainFPSinkPut E) 1 init.length (At view b k1 p1, _)).1, _) = _
      simp only [File.data]
      erw [h5]
      simp [Except.map, File.metadata]
  · refine ⟨p.2 ++ new, .inr ?_⟩
    rw [h, File.data, hch]
    simp

/-- C86: if the header that is seen is no longer the old one, then unpacking gives the metadata and all of the data, old and new, even though
the other process may not be finished yet. -/
theorem C86_new_header_partial (E : Env μ) (L : E.Laws) (F : File μ) (hc : F.Conforming E) (hnn : F.NoNull)
    (new : Bytes) (args : AppendArgs) (r : Except Err Int) (fp : FP)
    (hrun : appendFp E { data := new } new.length args { data := F.bytes E } = (r, fp))
    (view : Nat → Nat → Option UInt8) (hseen : Spec.Seen (F.bytes E) fp.log view) (b : Nat)
    (hnew : ∃ i, i < 32 ∧ view 0 i ≠ (F.bytes E)[i]?) :
    unpackShared E { view := view, bound := b } = (.ok F.metadata, F.data ++ new) := by
  obtain ⟨init, p, hch, ⟨h0, -⟩ | h⟩ := shared_cases L hc hnn hrun hseen b
  · obtain ⟨i, hi, h1⟩ := hnew
    exact absurd (h0 i hi) h1
  · exact h

/-- C86 is violated by every append that succeeds, needs more chunks than there are, and finds a last chunk that is not full: a process that
reads the archive at the right moment unpacks it without an exception and gets the old data together with only a part of the new data. -/
theorem C86_violated (E : Env μ) (L : E.Laws) (F : File μ) (hc : F.Conforming E) (hnn : F.NoNull)
    (new : Bytes) (args : AppendArgs) (k : Int) (fp : FP)
    (hrun : appendFp E { data := new } new.length args { data := F.bytes E } = (.ok k, fp))
    (hfull : F.header.last_chunk < F.header.chunk_size) (hlong : F.header.chunk_size - F.header.last_chunk < new.length) :
    ∃ view b m, Spec.Seen (F.bytes E) fp.log view ∧ 0 < m ∧ m < new.length ∧
      unpackShared E { view := view, bound := b } = (.ok F.metadata, F.data ++ new.take m) := by
  cases ho : F.header.offsets with
  | false =>
    have h2 := append_no_offsets L hc.toPre ho { data := new } new.length args []
    rw [hrun] at h2
    cases (Prod.mk.inj h2).1
  | true =>
    obtain ⟨init, p, hch, hlast, ⟨e, he, -⟩ | ⟨chs, q, k', hg, ⟨-, -, -, hl⟩ | ⟨-, ⟨e, he⟩, -⟩⟩⟩ := append_cases L hc ho hnn hrun
    · cases he
    rotate_left
    · cases he
    obtain ⟨offs, hparts, -⟩ := grownLog_parts hc ho hch hg (p.1 ++ ((F.impl E).function p.1 ++ F.junk))
    have hb := File.bytes_split (E := E) hch
    obtain ⟨c, cs, hcs⟩ : ∃ c cs, chs = c :: cs := by
      cases chs with
      | cons c cs => exact ⟨c, cs, rfl⟩
      | nil =>
        have h0 := hg.number
        rcases hg.count with ⟨h1, -⟩ | ⟨-, c1, l1, h1⟩
        · omega
        · have := (C02_chunking_covers _ _ _ _ _ h1).2.1
          simp at h0; omega
    have hcl : (c.2.length : Int) = F.header.chunk_size := hg.full c (by simp [hcs])
    have hcd : c.2 = p.2 ++ new.take (F.header.chunk_size - F.header.last_chunk).toNat := by
      have h1 := hg.content
      rw [hcs] at h1
      simp only [List.cons_append, List.map_cons, List.flatten_cons] at h1
      have h2 : c.2 = (p.2 ++ new).take c.2.length := by rw [← h1]; simp
      rw [h2, List.take_append, List.take_of_length_le (by omega)]
      congr 2; omega
    have hd : Spec.replay (F.bytes E) (seqLog (headPart E F init).length (chunksWrites (F.impl E) ((chs ++ [q]).map (·.1)))) =
        ({ F with chunks := init ++ [c], junk := Spec.records (F.impl E).function ((cs ++ [q]).map (·.1)) ++
          (p.1 ++ ((F.impl E).function p.1 ++ F.junk)).drop (Spec.records (F.impl E).function ((chs ++ [q]).map (·.1))).length } :
          File μ).bytes E := by
      rw [hb, replay_seqLog_over, chunksWrites_flatten]
      have e1 : Spec.records (F.impl E).function ((chs ++ [q]).map (·.1)) =
          c.1 ++ (F.impl E).function c.1 ++ Spec.records (F.impl E).function ((cs ++ [q]).map (·.1)) := by
        rw [hcs, List.cons_append, List.map_cons, records_cons]
      simp only [File.bytes, File.front, File.body, File.impl, File.secBytes, headPart, List.map_append, records_append] at e1 ⊢
      rw [e1]
      simp
    generalize hG : ({ F with chunks := init ++ [c], junk := Spec.records (F.impl E).function ((cs ++ [q]).map (·.1)) ++
          (p.1 ++ ((F.impl E).function p.1 ++ F.junk)).drop (Spec.records (F.impl E).function ((chs ++ [q]).map (·.1))).length } :
          File μ) = G at hd
    have hn : F.header.nchunks = init.length + 1 := by rw [hc.nchunks, hch]; simp
    have hv : G.Valid E := by
      rw [← hG]
      refine ⟨⟨hc.ok, hc.version, hc.meta_flag, hc.sec_ok, hc.offsets_len, hc.offsets_small, ?_, ?_⟩, ?_⟩
      · show ((init ++ [c]).length : Int) ≤ F.header.nchunks; simp; omega
      · intro r hr
        rcases List.mem_append.1 hr with h | h
        · exact hc.chunks_ok r (by rw [hch]; exact List.mem_append_left _ h)
        · exact L.decompress_compress _ _ _ (hg.comp r (by rw [hcs]; simp at h; simp [h]))
      · show F.header.nchunks = ((init ++ [c]).length : Int); simp; omega
    refine ⟨fun _ i => (G.bytes E)[i]?, (G.bytes E).length, (F.header.chunk_size - F.header.last_chunk).toNat,
      ⟨seqLog (headPart E F init).length (chunksWrites (F.impl E) ((chs ++ [q]).map (·.1))), _, by rw [hl, List.nil_append, hparts],
        fun i _ => by rw [hd], fun _ i => ⟨_, .inl rfl, by rw [hd]⟩⟩, by omega, by omega, ?_⟩
    rw [C86_alone _ _ _ (Nat.le_refl _), unpackFrom_file L hv, ← hG]
    simp only [File.metadata, File.data, hch, List.map_append, List.flatten_append]
    simp [hcd]

/-! ### examples -/

/-- The append of C27's example, read meanwhile. The header is seen before the first write; the bytes from position 100 on are fetched after all
of them, those before it before any: the first two chunks come out, the second with a part of the new data. With the header after all
writes and an old table of offsets everything comes out. -/
example : (packBytesToBytes Toy.env [1, 2, 3] (.int 2) (some 5) {} { max_app_chunks := .int 2 }
      { max_meta_size := .int 12 }).toOption.map (fun out =>
    let fp := (appendFp Toy.env { data := [4, 5, 6] } 3 {} { data := out }).2
    let r := unpackShared Toy.env { view := fun k i => if k = 0 ∨ i < 100 then out[i]? else fp.data[i]? }
    let s := unpackShared Toy.env { view := fun k i => if k = 0 then fp.data[i]? else (Spec.replay out (fp.log.take 5))[i]? }
    ((r.1.toOption, r.2), (s.1.toOption, s.2), fp.log.map (·.1))) =
    some ((some (some 5), [1, 2, 3, 4]), (some (some 5), [1, 2, 3, 4, 5, 6]), [134, 152, 156, 174, 0, 80]) := by
  decide +kernel

end Bloscpack
