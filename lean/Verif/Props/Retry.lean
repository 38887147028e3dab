import Verif.Props.AppendTorn
import Verif.Props.AppendCrash
import Verif.Props.Foreign
/-
C103: what happens when an interrupted append is repeated.
-/
namespace Bloscpack
variable {μ : Type}

section
variable {E : Env μ} {F : File μ} {init : List (Bytes × Bytes)} {p : Bytes × Bytes}

/-- after the header was written, whatever there is in the offsets section, the file is readable -/
theorem grown_valid_offsets (L : E.Laws) (hc : F.Conforming E) (hch : F.chunks = init ++ [p])
    {new : Bytes} {a : BloscArgs} {chs : List (Bytes × Bytes)} {q : Bytes × Bytes} {k : Int} (hg : Grown E F p new a chs q k)
    (tail O : Bytes) (hO : O.length = F.offsets.length) :
    ({ grownFile E F init (chs ++ [q]) q.2.length tail with offsets := O } : File μ).Valid E := by
  have hn : F.header.nchunks = init.length + 1 := by rw [hc.nchunks, hch]; simp
  have hl : ((chs ++ [q]).length : Int) - 1 ≤ F.header.max_app_chunks := by
    have := hg.space; have := hg.number; simp; omega
  have hcs : 0 ≤ F.header.chunk_size := by rcases hc.sizes with h | h <;> omega
  exact {
    ok := grownFile_header_ok (E := E) (init := init) (tail := tail) hc.ok (by omega) hcs (by simp) hl (by omega) hg.last_le
    version := hc.version
    meta_flag := hc.meta_flag
    sec_ok := hc.sec_ok
    offsets_len := by
      show O.length = _
      rw [hO, hc.offsets_len]
      unfold offsetsLen
      simp only [grownFile]
      congr 2
      omega
    offsets_small := by
      have := hc.offsets_small
      unfold offsetsLen at this ⊢
      simp only [grownFile]
      rw [show F.header.nchunks + (((chs ++ [q]).length : Int) - 1) + (F.header.max_app_chunks - (((chs ++ [q]).length : Int) - 1)) =
        F.header.nchunks + F.header.max_app_chunks by omega]
      exact this
    nchunks_le := by show ((init ++ (chs ++ [q])).length : Int) ≤ F.header.nchunks + ((chs ++ [q]).length - 1); simp; omega
    nchunks := by show F.header.nchunks + (((chs ++ [q]).length : Int) - 1) = ((init ++ (chs ++ [q])).length : Int); simp; omega
    chunks_ok := by
      intro r hr
      rcases List.mem_append.1 hr with h | h
      · exact hc.chunks_ok r (by rw [hch]; exact List.mem_append_left _ h)
      · exact L.decompress_compress _ _ _ (hg.comp r h) }

/-- the states a file can be in when an append to it is interrupted between two writes -/
theorem interrupted_states (L : E.Laws) (hc : F.Conforming E) (hnn : F.NoNull)
    (new : Bytes) (args : AppendArgs) (r : Except Err Int) (fp : FP)
    (hrun : appendFp E { data := new } new.length args { data := F.bytes E } = (r, fp)) (hsize : fp.data.length < 2 ^ 63)
    (done todo : List (Nat × Bytes)) (hlog : fp.log = done ++ todo) :
    done = [] ∨ F.header.offsets = true ∧ ∃ init p, F.chunks = init ++ [p] ∧ (p.2.length : Int) = F.header.last_chunk ∧
    ((∃ c X, done ≠ [] ∧ (∀ w ∈ done, w.1 ≠ 0) ∧ Spec.replay (F.bytes E) done = headPart E F init ++ (c ++ X) ∧
        E.compress (p.2 ++ new.take (F.header.chunk_size - F.header.last_chunk).toNat) (args.filled F.header) = .ok c) ∨
     (∃ w ∈ done, w.1 = 0) ∧ ∃ chs q k tail, Grown E F p new (args.filled F.header) chs q k ∧
       ((chs ≠ [] ∧ todo ≠ [] ∧ Spec.replay (F.bytes E) done =
          ({ grownFile E F init (chs ++ [q]) q.2.length tail with offsets := F.offsets } : File μ).bytes E) ∨
        (todo = [] ∧ Spec.replay (F.bytes E) done = (grownFile E F init (chs ++ [q]) q.2.length tail).bytes E ∧
          (grownFile E F init (chs ++ [q]) q.2.length tail).Conforming E))) := by
  cases ho : F.header.offsets with
  | false =>
    have h1 := append_no_offsets L hc.toPre ho { data := new } new.length args []
    rw [hrun] at h1
    cases h1
    exact .inl (List.append_eq_nil_iff.1 hlog.symm).1
  | true =>
  obtain ⟨init, p, hch, hlast, h2⟩ := append_cases L hc ho hnn hrun
  rcases h2 with ⟨e, -, -, hl, -⟩ | ⟨chs, q, k, hg, ⟨hreach, -, hdata, hl⟩ | ⟨-, -, hbig, -⟩⟩
  · left
    rw [hl] at hlog
    exact (List.append_eq_nil_iff.1 hlog.symm).1
  · by_cases hd : done = []
    · exact .inl hd
    refine .inr ⟨rfl, init, p, hch, hlast, ?_⟩
    rw [List.nil_append] at hl
    have hb := File.bytes_split (E := E) hch
    have hconf := hg.conforming L hc ho hch hreach (p.1 ++ ((F.impl E).function p.1 ++ F.junk))
    generalize p.1 ++ ((F.impl E).function p.1 ++ F.junk) = tail at hl hb hconf hdata
    have hall : todo = [] → Spec.replay (F.bytes E) done = fp.data := by
      rintro rfl
      rw [List.append_nil] at hlog
      rw [← hlog]
      exact (C27_writes E _ _ _ _ _ hrun).1.symm
    rw [hl] at hlog
    rw [hb] at hall ⊢
    have hfront : 0 < (headPart E F init).length := by
      have := BloscpackHeader.bytes_length F.header
      simp [headPart, File.front]; omega
    have hcut : ∀ x y, x ≠ [] → chunksWrites (F.impl E) ((chs ++ [q]).map (·.1)) = x ++ y →
        ∃ c X, Spec.replay (headPart E F init ++ tail) (seqLog (headPart E F init).length x) = headPart E F init ++ (c ++ X) ∧
          E.compress (p.2 ++ new.take (F.header.chunk_size - F.header.last_chunk).toNat) (args.filled F.header) = .ok c := by
      intro x y hx hxy
      cases x with
      | nil => exact absurd rfl hx
      | cons w x =>
        obtain ⟨r0, rs, hrs⟩ : ∃ r0 rs, chs ++ [q] = r0 :: rs := by cases chs <;> simp
        have hw : w = r0.1 := by
          rw [hrs] at hxy
          simp only [List.map_cons, chunksWrites, List.flatMap_cons, chunkWrites, List.cons_append, List.cons.injEq] at hxy
          exact hxy.1.symm
        subst hw
        have hcomp := hg.comp r0 (by rw [hrs]; simp)
        have hcont := hg.content
        rw [hrs, List.map_cons, List.flatten_cons] at hcont
        have hsz : (p.2.length : Int) ≤ F.header.chunk_size := by rw [hlast]; rcases hc.sizes with h | h <;> omega
        have hr0 : r0.2 = p.2 ++ new.take (F.header.chunk_size - F.header.last_chunk).toNat := by
          cases chs with
          | nil =>
            simp only [List.nil_append, List.cons.injEq] at hrs
            obtain ⟨rfl, rfl⟩ := hrs
            simp only [List.map_nil, List.flatten_nil, List.append_nil] at hcont
            have hle := hg.last_le
            have hlen := congrArg List.length hcont
            rw [List.length_append] at hlen
            rw [hcont, List.take_of_length_le (by omega)]
          | cons r1 rs1 =>
            simp only [List.cons_append, List.cons.injEq] at hrs
            obtain ⟨rfl, rfl⟩ := hrs
            have := hg.full r1 (by simp)
            have h4 := congrArg (List.take r1.2.length) hcont
            rw [List.take_left, List.take_append, List.take_of_length_le (by omega)] at h4
            rw [h4]
            congr 2
            omega
        rw [hr0] at hcomp
        refine ⟨r0.1, x.flatten ++ tail.drop (r0.1 ++ x.flatten).length, ?_, hcomp⟩
        rw [replay_seqLog_over, List.flatten_cons, List.append_assoc]
    have hpos : ∀ x, ∀ w ∈ seqLog (headPart E F init).length x, w.1 ≠ 0 := by
      intro x w hw
      have := seqLog_beyond _ x w hw
      omega
    unfold grownLog at hlog
    rcases List.append_eq_append_iff.1 hlog with ⟨a, rfl, h4⟩ | ⟨c, h4, -⟩
    · cases a with
      | nil =>
        left
        rw [List.append_nil] at hd ⊢
        obtain ⟨c, X, g1, g2⟩ := hcut (chunksWrites (F.impl E) ((chs ++ [q]).map (·.1))) [] (by intro h; rw [h] at hd; exact hd rfl) (by simp)
        exact ⟨c, X, hd, hpos _, g1, g2⟩
      | cons w a =>
        right
        simp only [List.cons_append, List.cons.injEq] at h4
        obtain ⟨rfl, h4⟩ := h4
        refine ⟨⟨(0, _), List.mem_append_right _ (List.mem_cons_self ..), rfl⟩, chs, q, k, tail, hg, ?_⟩
        by_cases htodo : todo = []
        · exact .inr ⟨htodo, by rw [hall htodo, hdata], hconf⟩
        have hcs : chs ≠ [] := by
          rintro rfl
          rw [if_pos rfl] at h4
          exact htodo (List.append_eq_nil_iff.1 h4.symm).2
        rw [if_neg hcs] at h4
        have ha : a = [] := by
          have := congrArg List.length h4
          have : 0 < todo.length := List.length_pos_iff.2 htodo
          simp at *
          exact List.eq_nil_of_length_eq_zero (by omega)
        subst ha
        refine .inl ⟨hcs, htodo, ?_⟩
        rw [replay_append, replay_seqLog_over, chunksWrites_flatten]
        have hbytes : ∀ O : Bytes, ({ grownFile E F init (chs ++ [q]) q.2.length tail with offsets := O } : File μ).bytes E =
            (grownFile E F init (chs ++ [q]) q.2.length tail).header.bytes ++ (F.secBytes E ++ (O ++
              (Spec.records (F.impl E).function (init.map (·.1)) ++ (Spec.records (F.impl E).function ((chs ++ [q]).map (·.1)) ++
              tail.drop (Spec.records (F.impl E).function ((chs ++ [q]).map (·.1))).length)))) := by
          intro O
          show ((grownFile E F init (chs ++ [q]) q.2.length tail).header.bytes ++ (F.secBytes E ++ O)) ++
            (Spec.records (F.impl E).function ((init ++ (chs ++ [q])).map (·.1)) ++ _) = _
          rw [List.map_append, records_append]
          simp [grownFile]
        have hhdr : overlay (headPart E F init ++ (Spec.records (F.impl E).function ((chs ++ [q]).map (·.1)) ++
              tail.drop (Spec.records (F.impl E).function ((chs ++ [q]).map (·.1))).length)) 0
              (grownFile E F init (chs ++ [q]) q.2.length tail).header.bytes =
            ({ grownFile E F init (chs ++ [q]) q.2.length tail with offsets := F.offsets } : File μ).bytes E := by
          rw [hbytes]
          have := overlay_mid [] F.header.bytes (F.secBytes E ++ (F.offsets ++
              (Spec.records (F.impl E).function (init.map (·.1)) ++ (Spec.records (F.impl E).function ((chs ++ [q]).map (·.1)) ++
              tail.drop (Spec.records (F.impl E).function ((chs ++ [q]).map (·.1))).length))))
              (grownFile E F init (chs ++ [q]) q.2.length tail).header.bytes
              (by rw [BloscpackHeader.bytes_length, BloscpackHeader.bytes_length]; exact Nat.le_refl _)
          rw [show F.header.bytes.drop (grownFile E F init (chs ++ [q]) q.2.length tail).header.bytes.length = [] from
            List.drop_of_length_le (by rw [BloscpackHeader.bytes_length, BloscpackHeader.bytes_length]; exact Nat.le_refl _)] at this
          simp only [List.nil_append, List.append_nil, List.length_nil] at this
          rw [← this]
          simp [headPart, File.front]
        rw [replay_cons, hhdr, replay_nil]
    · obtain ⟨x, y, h5, rfl⟩ := seqLog_prefix _ _ h4
      obtain ⟨c, X, g1, g2⟩ := hcut x y (by rintro rfl; exact hd rfl) h5
      exact .inl ⟨c, X, hd, hpos _, g1, g2⟩
  · omega

/-- the file with another last chunk, and something else after its digest -/
def replacedFile (F : File μ) (init : List (Bytes × Bytes)) (c d junk : Bytes) : File μ :=
  { F with chunks := init ++ [(c, d)], junk := junk }

/-- the last chunk was replaced and the header not written yet: a file with right offsets, but for the digest of the last chunk -/
theorem replaced_located (L : E.Laws) (hc : F.Conforming E) (hch : F.chunks = init ++ [p]) {c d X : Bytes} (hd : E.decompress c = .ok d) :
    (replacedFile F init c d X).Located E := by
  have hn : F.header.nchunks = init.length + 1 := by rw [hc.nchunks, hch]; simp
  have hpos : Spec.positions (F.impl E).function (F.front E).length ((init ++ [(c, d)]).map (·.1)) =
      Spec.positions (F.impl E).function (F.front E).length (F.chunks.map (·.1)) := by
    rw [hch, List.map_append, List.map_append]
    exact positions_snoc_congr _ _ _ _ _
  exact {
    ok := hc.ok
    version := hc.version
    meta_flag := hc.meta_flag
    sec_ok := hc.sec_ok
    offsets_len := hc.offsets_len
    offsets_small := hc.offsets_small
    nchunks_le := by show ((init ++ [(c, d)]).length : Int) ≤ F.header.nchunks; rw [hn]; simp
    chunks_ok := by
      intro r hr
      rcases List.mem_append.1 hr with h | h
      · exact hc.chunks_ok r (by rw [hch]; exact List.mem_append_left _ h)
      · rw [List.mem_singleton.1 h]; exact hd
    nchunks := by show F.header.nchunks = ((init ++ [(c, d)]).length : Int); rw [hn]; simp
    table := fun ho => (hc.table ho).trans (congrArg (fun x => Spec.int64s (x ++ _)) hpos.symm)
    reach := fun ho => by
      have := hc.reach ho
      rw [← hpos] at this
      exact this }

/-- appending to a file whose last offset is -1 raises `OSError` -/
theorem appendFp_unset (L : E.Laws) (hv : F.Pre E) (hnn : F.NoNull) (ho : F.header.offsets = true) {os : List Int}
    (hos : decodeOffsets F.offsets F.header.nchunks.toNat = .ok os) (hlast : lastOffset os = .ok (-1)) (new : FP) (n : Int)
    (args : AppendArgs) :
    ∃ fp, appendFp E new n args { data := F.bytes E } = (.error .osError, fp) ∧ fp.data = F.bytes E ∧ fp.log = [] := by
  obtain ⟨hl1, hl2, -⟩ := File.lookup hv
  obtain ⟨os', h1, h2, -⟩ := readBeginning_file L hv (F.body E ++ F.junk) []
  have h2 := h2 ho
  rw [hos] at h2
  cases h2
  have hne : os ≠ [] := by
    rintro rfl
    cases hlast
  have hz : ({ data := F.bytes E } : FP) = Z [] (F.front E ++ (F.body E ++ F.junk)) [] := rfl
  have hsk : fpSeek (-1) (Z (F.front E) (F.body E ++ F.junk) []) = (.error .osError, Z (F.front E) (F.body E ++ F.junk) []) := rfl
  refine ⟨Z (F.front E) (F.body E ++ F.junk) [], ?_, Z_data _ _ _ _, rfl⟩
  unfold appendFp appendFrom
  rw [hz, Proc.bind_of_ok h1]
  simp only
  rw [Proc.bind_of_ok (Proc.ofExcept_apply _ _ |>.trans (by rw [hl1])),
    Proc.bind_of_ok (Proc.raiseIf_neg hne _ _),
    Proc.bind_of_ok (Proc.ofExcept_apply _ _ |>.trans (by rw [args.fill_ok hv.ok])),
    Proc.bind_of_ok (Proc.ofExcept_apply _ _ |>.trans (by rw [offsetsPos_ok L hv hnn])),
    Proc.bind_of_ok (Proc.ofExcept_apply _ _ |>.trans (by rw [hlast])),
    Proc.bind_of_error hsk]

/-- the header was written, the offsets were not: the last offset is -1 -/
theorem grown_unset (hc : F.Conforming E) (ho : F.header.offsets = true) (hch : F.chunks = init ++ [p])
    {new : Bytes} {a : BloscArgs} {chs : List (Bytes × Bytes)} {q : Bytes × Bytes} {k : Int} (hg : Grown E F p new a chs q k)
    (hne : chs ≠ []) (tail : Bytes) :
    ∃ os, decodeOffsets F.offsets (grownFile E F init (chs ++ [q]) q.2.length tail).header.nchunks.toNat = .ok os ∧
      lastOffset os = .ok (-1) := by
  have hn : F.header.nchunks = init.length + 1 := by rw [hc.nchunks, hch]; simp
  have hsp := hg.space
  have hno := hg.number
  have hpos : 0 < chs.length := List.length_pos_iff.2 hne
  refine ⟨Spec.positions (F.impl E).function (F.front E).length (F.chunks.map (·.1)) ++ List.replicate chs.length (-1), ?_, ?_⟩
  · rw [hc.table ho, show F.header.max_app_chunks.toNat = chs.length + (F.header.max_app_chunks.toNat - chs.length) by omega,
      ← List.replicate_append_replicate, ← List.append_assoc, int64s_append]
    have hl : (grownFile E F init (chs ++ [q]) q.2.length tail).header.nchunks.toNat =
        (Spec.positions (F.impl E).function (F.front E).length (F.chunks.map fun x : Bytes × Bytes => x.1) ++
          List.replicate chs.length (-1)).length := by
      rw [List.length_append, positions_length, hch]
      simp [grownFile]
      omega
    rw [hl]
    refine decodeOffsets_int64s _ ?_ _
    intro o h
    rcases List.mem_append.1 h with h | h
    · have h1 := hc.reach ho o h
      obtain ⟨i, hi, rfl⟩ := List.getElem_of_mem h
      rw [positions_getElem _ _ _ i (by rw [positions_length] at hi; exact hi)] at h1 ⊢
      omega
    · rw [(List.mem_replicate.1 h).2]; decide
  · obtain ⟨m, hm⟩ : ∃ m, chs.length = m + 1 := ⟨chs.length - 1, by omega⟩
    unfold lastOffset
    rw [hm, List.replicate_succ', ← List.append_assoc]
    simp

end

/-- C103: an append was interrupted between two of its writes, and then something is appended again, the same or something else, with the
same settings or others. If this succeeds, the file unpacks to the previous data, the beginning of the content of the interrupted
append that had got into the file, and the newly appended content, in this order, with the previous metadata. This beginning is empty if
nothing had been written. It is what filled up the last chunk if the header had not been written, and everything if the append had been
completed. -/
theorem C103_repeated_partial (E : Env μ) (L : E.Laws) (F : File μ) (hc : F.Conforming E) (hnn : F.NoNull)
    (new : Bytes) (args : AppendArgs) (r : Except Err Int) (fp : FP)
    (hrun : appendFp E { data := new } new.length args { data := F.bytes E } = (r, fp)) (hsize : fp.data.length < 2 ^ 63)
    (done todo : List (Nat × Bytes)) (hlog : fp.log = done ++ todo)
    (again : Bytes) (args2 : AppendArgs) (fp2 : FP)
    (h : appendFile E (Spec.replay (F.bytes E) done) again args2 = (.ok (), fp2)) :
    ∃ t, unpackBytesFromBytes E fp2.data = .ok (F.data ++ new.take t ++ again, F.metadata) ∧
      (done = [] → t = 0) ∧
      (done ≠ [] → (∀ w ∈ done, w.1 ≠ 0) → (t : Int) = F.header.chunk_size - F.header.last_chunk) ∧
      (done ≠ [] → (∃ w ∈ done, w.1 = 0) → todo = [] ∧ t = new.length) := by
  have hplain : ∀ (G : File μ), G.Conforming E → G.NoNull → appendFile E (G.bytes E) again args2 = (.ok (), fp2) →
      unpackBytesFromBytes E fp2.data = .ok (G.data ++ again, G.metadata) := by
    intro G hG hGn hGa
    obtain ⟨init, p, e1, -, e3⟩ := hG.lengths
    exact (C85_appends_partial L hG.located hGn e1 (by rcases hG.sizes with h | h <;> omega) (by omega) again args2 fp2 hGa).1
  rcases interrupted_states L hc hnn new args r fp hrun hsize done todo hlog with
    rfl | ⟨ho, init, p, hch, hlast, ⟨c, X, hd, hw, hrep, hcomp⟩ | ⟨hw, chs, q, k, tail, hg, ⟨hne, htodo, hrep⟩ | ⟨htodo, hrep, hconf⟩⟩⟩
  · exact ⟨0, by rw [hplain F hc hnn h]; simp, fun _ => rfl, fun h => absurd rfl h, fun h => absurd rfl h⟩
  · have hsz : 0 ≤ F.header.chunk_size - F.header.last_chunk := by rcases hc.sizes with h | h <;> omega
    refine ⟨(F.header.chunk_size - F.header.last_chunk).toNat, ?_, fun h => absurd h hd, fun _ _ => by omega,
      fun _ ⟨w, h1, h2⟩ => absurd h2 (hw w h1)⟩
    have hl : ((p.2 ++ new.take (F.header.chunk_size - F.header.last_chunk).toNat).length : Int) ≤ F.header.chunk_size := by
      rw [List.length_append, List.length_take]; omega
    generalize hG : replacedFile F init c (p.2 ++ new.take (F.header.chunk_size - F.header.last_chunk).toNat) (X.drop (F.impl E).size) = G
    have hloc : G.Located E := hG ▸ replaced_located L hc hch (L.decompress_compress _ _ _ hcomp)
    have hb : Spec.replay (F.bytes E) done = headPart E G init ++ (c ++ (X.take (F.impl E).size ++ G.junk)) := by
      rw [hrep, ← hG]
      show headPart E F init ++ (c ++ X) = headPart E F init ++ (c ++ (X.take (F.impl E).size ++ X.drop (F.impl E).size))
      rw [List.take_append_drop]
    rw [hb] at h
    obtain ⟨G', ini, q, k1, k2, -, k4, k5, -⟩ := foreign_append_digest L (init := init)
      (p := (c, p.2 ++ new.take (F.header.chunk_size - F.header.last_chunk).toNat)) hloc (by rw [← hG]; exact hnn) (by rw [← hG]; rfl)
      (by rw [← hG]; exact hl) (by rw [← hG]; show F.header.last_chunk ≤ ((p.2 ++ _).length : Int); rw [List.length_append]; omega)
      (X.take (F.impl E).size)
      (by rw [← hG]; show (X.take (F.impl E).size ++ X.drop (F.impl E).size).take (F.impl E).size = _; rw [List.take_append_drop])
      (by rw [← hG]; exact ho) again args2 fp2 h
    rw [k1, unpackBytes_ok (unpackFrom_file L k2.toValid), k4, k5, ← hG]
    show Except.ok (((init ++ [_]).map fun x : Bytes × Bytes => x.2).flatten ++ again, F.metadata) = _
    rw [File.data, hch]
    simp
  · have hval := grown_valid_offsets L hc hch hg tail F.offsets rfl
    obtain ⟨os, g1, g2⟩ := grown_unset hc ho hch hg hne tail
    obtain ⟨fp', g3, -⟩ := appendFp_unset L hval.toPre (show File.NoNull _ from hnn) ho g1 g2 { data := again } again.length args2
    rw [hrep] at h
    unfold appendFile at h
    rw [g3] at h
    cases h
  · rw [hrep] at h
    have hd : done ≠ [] := by rintro rfl; obtain ⟨w, h1, -⟩ := hw; cases h1
    refine ⟨new.length, ?_, fun h => absurd h hd, fun _ h => ?_, fun _ _ => ⟨htodo, rfl⟩⟩
    · rw [hplain _ hconf hnn h, hg.data hch, List.take_length]; rfl
    · obtain ⟨w, h1, h2⟩ := hw
      exact absurd h2 (h w h1)

/-- C103: if appending after an interrupted append fails, the file stays as the interruption left it. -/
theorem C103_failed_partial (E : Env μ) (L : E.Laws) (F : File μ) (hc : F.Conforming E) (hnn : F.NoNull)
    (new : Bytes) (args : AppendArgs) (r : Except Err Int) (fp : FP)
    (hrun : appendFp E { data := new } new.length args { data := F.bytes E } = (r, fp)) (hsize : fp.data.length < 2 ^ 63)
    (done todo : List (Nat × Bytes)) (hlog : fp.log = done ++ todo)
    (again : Bytes) (hne : again ≠ []) (args2 : AppendArgs) (e : Err) (fp2 : FP)
    (h : appendFile E (Spec.replay (F.bytes E) done) again args2 = (.error e, fp2)) (hsize2 : fp2.data.length < 2 ^ 63) :
    fp2.data = Spec.replay (F.bytes E) done ∧ fp2.log = [] := by
  have hplain : ∀ (G : File μ), G.Conforming E → G.NoNull → appendFile E (G.bytes E) again args2 = (.error e, fp2) →
      fp2.data = G.bytes E ∧ fp2.log = [] := by
    intro G hG hGn hGa
    obtain ⟨init, p, e1, -, e3⟩ := hG.lengths
    exact C85_failed_untouched_partial L hG.located hGn e1 (by rcases hG.sizes with h | h <;> omega) (by omega) again hne args2 e fp2 hGa hsize2
  rcases interrupted_states L hc hnn new args r fp hrun hsize done todo hlog with
    rfl | ⟨ho, init, p, hch, hlast, ⟨c, X, hd, hw, hrep, hcomp⟩ | ⟨hw, chs, q, k, tail, hg, ⟨hcs, htodo, hrep⟩ | ⟨htodo, hrep, hconf⟩⟩⟩
  · exact hplain F hc hnn h
  · have hsz : 0 ≤ F.header.chunk_size - F.header.last_chunk := by rcases hc.sizes with h | h <;> omega
    have hl : ((p.2 ++ new.take (F.header.chunk_size - F.header.last_chunk).toNat).length : Int) ≤ F.header.chunk_size := by
      rw [List.length_append, List.length_take]; omega
    generalize hG : replacedFile F init c (p.2 ++ new.take (F.header.chunk_size - F.header.last_chunk).toNat) (X.drop (F.impl E).size) = G
    have hloc : G.Located E := hG ▸ replaced_located L hc hch (L.decompress_compress _ _ _ hcomp)
    have hb : Spec.replay (F.bytes E) done = headPart E G init ++ (c ++ (X.take (F.impl E).size ++ G.junk)) := by
      rw [hrep, ← hG]
      show headPart E F init ++ (c ++ X) = headPart E F init ++ (c ++ (X.take (F.impl E).size ++ X.drop (F.impl E).size))
      rw [List.take_append_drop]
    rw [hb] at h ⊢
    exact foreign_failed L (init := init)
      (p := (c, p.2 ++ new.take (F.header.chunk_size - F.header.last_chunk).toNat)) hloc (by rw [← hG]; exact hnn) (by rw [← hG]; rfl)
      (by rw [← hG]; exact hl) (by rw [← hG]; show F.header.last_chunk ≤ ((p.2 ++ _).length : Int); rw [List.length_append]; omega)
      (X.take (F.impl E).size)
      (by rw [← hG]; show (X.take (F.impl E).size ++ X.drop (F.impl E).size).take (F.impl E).size = _; rw [List.take_append_drop])
      (by rw [← hG]; exact ho) again hne args2 e fp2 h hsize2
  · have hval := grown_valid_offsets L hc hch hg tail F.offsets rfl
    obtain ⟨os, g1, g2⟩ := grown_unset hc ho hch hg hcs tail
    obtain ⟨fp', g3, g4, g5⟩ := appendFp_unset L hval.toPre (show File.NoNull _ from hnn) ho g1 g2 { data := again } again.length args2
    rw [hrep] at h ⊢
    unfold appendFile at h
    rw [g3] at h
    cases h
    exact ⟨g4, g5⟩
  · rw [hrep] at h ⊢
    exact hplain _ hconf hnn h

/-- C103: if the header was written before the interruption, but the append was not completed, the file unpacks to the previous data
followed by all of the new, but nothing can ever be appended to it again: this raises `OSError`, and does not touch the file. -/
theorem C103_stuck (E : Env μ) (L : E.Laws) (F : File μ) (hc : F.Conforming E) (hnn : F.NoNull)
    (new : Bytes) (args : AppendArgs) (r : Except Err Int) (fp : FP)
    (hrun : appendFp E { data := new } new.length args { data := F.bytes E } = (r, fp)) (hsize : fp.data.length < 2 ^ 63)
    (done todo : List (Nat × Bytes)) (hlog : fp.log = done ++ todo) (hheader : ∃ w ∈ done, w.1 = 0) (htodo : todo ≠ []) :
    unpackBytesFromBytes E (Spec.replay (F.bytes E) done) = .ok (F.data ++ new, F.metadata) ∧
    ∀ (again : Bytes) (args2 : AppendArgs), ∃ fp2,
      appendFile E (Spec.replay (F.bytes E) done) again args2 = (.error .osError, fp2) ∧
      fp2.data = Spec.replay (F.bytes E) done := by
  rcases interrupted_states L hc hnn new args r fp hrun hsize done todo hlog with
    rfl | ⟨ho, init, p, hch, hlast, ⟨c, X, hd, hw, hrep, hcomp⟩ | ⟨hw, chs, q, k, tail, hg, ⟨hcs, -, hrep⟩ | ⟨h, -⟩⟩⟩
  · obtain ⟨w, h1, -⟩ := hheader; cases h1
  · obtain ⟨w, h1, h2⟩ := hheader
    exact absurd h2 (hw w h1)
  · rw [hrep]
    refine ⟨unpack_grown L hc ho hch hg tail _ rfl, fun again args2 => ?_⟩
    have hval := grown_valid_offsets L hc hch hg tail F.offsets rfl
    obtain ⟨os, g1, g2⟩ := grown_unset hc ho hch hg hcs tail
    obtain ⟨fp', g3, g4, -⟩ := appendFp_unset L hval.toPre (show File.NoNull _ from hnn) ho g1 g2 { data := again } again.length args2
    refine ⟨fp', ?_, g4⟩
    unfold appendFile
    rw [g3]
  · exact absurd h htodo

/-- C103 is violated: if the new content fits into the last chunk twice, the append is interrupted after it has written the last chunk
and is then repeated, this succeeds and the new content is in the file twice. -/
theorem C103_doubled_violated (E : Env μ) (L : E.Laws) (F : File μ) (hc : F.Conforming E) (hnn : F.NoNull) (ho : F.header.offsets = true)
    (init : List (Bytes × Bytes)) (p : Bytes × Bytes) (hch : F.chunks = init ++ [p]) (new : Bytes) (hne : new ≠ []) (args : AppendArgs)
    (hfit : F.header.last_chunk + 2 * new.length ≤ F.header.chunk_size) (c c2 : Bytes)
    (hc1 : E.compress (p.2 ++ new) (args.filled F.header) = .ok c)
    (hc2 : E.compress (p.2 ++ new ++ new) (args.filled F.header) = .ok c2)
    (hfile : ∀ fp, appendFile E (F.bytes E) new args = (.ok (), fp) → fp.data.length < 2 ^ 63) :
    ∃ fp done todo fp2, appendFile E (F.bytes E) new args = (.ok (), fp) ∧ fp.log = done ++ todo ∧ todo ≠ [] ∧
      appendFile E (Spec.replay (F.bytes E) done) new args = (.ok (), fp2) ∧
      unpackBytesFromBytes E fp2.data = .ok (F.data ++ new ++ new, F.metadata) := by
  have hpos : 0 < new.length := List.length_pos_iff.2 hne
  have hcs : 0 ≤ F.header.chunk_size := by rcases hc.sizes with h | h <;> omega
  have hlast : (p.2.length : Int) = F.header.last_chunk := by
    obtain ⟨init0, p0, e1, -, e3⟩ := hc.lengths
    rw [hch] at e1
    have := (List.append_inj' e1 rfl).2
    simp only [List.cons.injEq, and_true] at this
    rw [this]; exact e3
  -- every append that fits into the last chunk
  have hsq : ∀ (G : File μ) (q : Bytes × Bytes) (D c : Bytes), G.Located E → G.NoNull → G.header = F.header → G.chunks = init ++ [q] →
      (D ++ G.junk).take (G.impl E).size = D → (q.2.length : Int) + new.length ≤ F.header.chunk_size → F.header.last_chunk ≤ q.2.length →
      E.compress (q.2 ++ new) (args.filled F.header) = .ok c →
      ∃ fp w, appendFile E (headPart E G init ++ (q.1 ++ (D ++ G.junk))) new args = (.ok (), fp) ∧
        appendFp E { data := new } new.length args { data := headPart E G init ++ (q.1 ++ (D ++ G.junk)) } = (.ok 0, fp) ∧
        fp.log = seqLog (headPart E G init).length (chunkWrites (G.impl E) c) ++ [(0, w)] := by
    intro G q D c hG hGn hh hGc hD h1 h2 h3
    have hst := appendFrom_start_at L hG (by rw [hh]; exact ho) (offsetsPos_ok L hG.toPre hGn) hGc D hD
      (fun n => (({ data := new } : FP).read n).1)
      (fun b cs lc k => (plainFPSource (({ data := new } : FP).read b).2 cs lc k).items) new.length args []
    rw [hh, if_pos (by omega), read_at_start, List.take_length] at hst
    obtain ⟨fp, g1, -, g3⟩ := squeezeIn_ok (n := new.length) hG (by rw [hh]; exact hcs) (by rw [hh]; exact ho) hGc D
      (by rw [hh]; omega) h3 []
    rw [hh] at g1
    rw [g1] at hst
    have hrun : appendFp E { data := new } new.length args { data := headPart E G init ++ (q.1 ++ (D ++ G.junk)) } = (.ok 0, fp) := hst
    refine ⟨fp, _, ?_, hrun, by rw [g3, List.nil_append]⟩
    unfold appendFile
    rw [hrun]
    exact if_neg (by omega)
  have hb := File.bytes_split (E := E) hch
  have hD : ((F.impl E).function p.1).length = (F.impl E).size := Hash.size_eq L (File.lookup hc.toPre).2.1 _
  obtain ⟨fp, w, a1, a2, a3⟩ := hsq F p _ c hc.located hnn rfl hch (take_digest hD _) (by omega) (by omega) hc1
  rw [← hb] at a1 a2
  have hsize : fp.data.length < 2 ^ 63 := hfile fp a1
  generalize htail : p.1 ++ ((F.impl E).function p.1 ++ F.junk) = tail at hb
  have hrep : Spec.replay (F.bytes E) (seqLog (headPart E F init).length (chunkWrites (F.impl E) c)) =
      headPart E F init ++ (c ++ ((F.impl E).function c ++ tail.drop (c ++ (F.impl E).function c).length)) := by
    rw [hb, replay_seqLog_over, chunkWrites_flatten, List.append_assoc]
  have hD2 : ((F.impl E).function c).length = (F.impl E).size := Hash.size_eq L (File.lookup hc.toPre).2.1 _
  obtain ⟨fp2, w2, b1, -, -⟩ := hsq (replacedFile F init c (p.2 ++ new) (tail.drop (c ++ (F.impl E).function c).length)) (c, p.2 ++ new)
    ((F.impl E).function c) c2 (replaced_located L hc hch (L.decompress_compress _ _ _ hc1)) hnn rfl rfl (take_digest hD2 _)
    (by show ((p.2 ++ new).length : Int) + _ ≤ _; rw [List.length_append]; omega)
    (by show _ ≤ ((p.2 ++ new).length : Int); rw [List.length_append]; omega) hc2
  have b2 : appendFile E (Spec.replay (F.bytes E) (seqLog (headPart E F init).length (chunkWrites (F.impl E) c))) new args = (.ok (), fp2) := by
    rw [hrep]; exact b1
  refine ⟨fp, _, _, fp2, a1, a3, by simp, b2, ?_⟩
  obtain ⟨t, u1, -, u3, -⟩ := C103_repeated_partial E L F hc hnn new args _ fp a2 hsize _ _ a3 new args fp2 b2
  have ht := u3 (by simp [chunkWrites, seqLog]) (by
    intro w hw
    have := seqLog_beyond _ _ w hw
    have := BloscpackHeader.bytes_length F.header
    have : 0 < (headPart E F init).length := by simp [headPart, File.front]; omega
    omega)
  rw [u1, List.take_of_length_le (by omega)]

/-- A file with a chunk of 8 and room in it, to which three bytes are appended: three writes, the chunk, its digest, the header. What
unpacking gives after the append was interrupted after 0, 1, 2, 3 of them and was then repeated. -/
example : (packBytesToBytes Toy.env [1, 2, 3, 1, 2, 3, 1, 2, 9, 9] (.int 8) (some 5) {} { max_app_chunks := .int 2 } { max_meta_size := .int 12 }).toOption.map
    (fun out =>
      let fp := (appendFp Toy.env { data := [4, 5, 6] } 3 {} { data := out }).2
      (List.range 4).map fun n =>
        (unpackBytesFromBytes Toy.env (appendFile Toy.env (Spec.replay out (fp.log.take n)) [4, 5, 6]).2.data).toOption) =
      some [some ([1, 2, 3, 1, 2, 3, 1, 2, 9, 9, 4, 5, 6], some 5), some ([1, 2, 3, 1, 2, 3, 1, 2, 9, 9, 4, 5, 6, 4, 5, 6], some 5),
        some ([1, 2, 3, 1, 2, 3, 1, 2, 9, 9, 4, 5, 6, 4, 5, 6], some 5), some ([1, 2, 3, 1, 2, 3, 1, 2, 9, 9, 4, 5, 6, 4, 5, 6], some 5)] := by
  decide +kernel

/-- The append with six writes of C27: the chunk that fills up the last one and its digest, a new chunk and its digest, the header, the
offsets. -/
example : (packBytesToBytes Toy.env [1, 2, 3] (.int 2) (some 5) {} { max_app_chunks := .int 5 } { max_meta_size := .int 12 }).toOption.map
    (fun out =>
      let fp := (appendFp Toy.env { data := [4, 5, 6] } 3 {} { data := out }).2
      (List.range 7).map fun n =>
        let again := appendFile Toy.env (Spec.replay out (fp.log.take n)) [4, 5, 6]
        (again.1.toOption, (unpackBytesFromBytes Toy.env again.2.data).toOption)) =
      some [(some (), some ([1, 2, 3, 4, 5, 6], some 5)), (some (), some ([1, 2, 3, 4, 4, 5, 6], some 5)),
        (some (), some ([1, 2, 3, 4, 4, 5, 6], some 5)), (some (), some ([1, 2, 3, 4, 4, 5, 6], some 5)),
        (some (), some ([1, 2, 3, 4, 4, 5, 6], some 5)), (none, some ([1, 2, 3, 4, 5, 6], some 5)),
        (some (), some ([1, 2, 3, 4, 5, 6, 4, 5, 6], some 5))] := by
  decide +kernel

end Bloscpack
