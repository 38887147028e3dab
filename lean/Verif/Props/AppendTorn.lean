import Verif.Props.AppendCrash
/-
C78: appends interrupted in the middle of a write.
-/
namespace Bloscpack
variable {μ : Type}

/-! ### lemmas -/

/-- one more chunk is expected, and anything follows -/
theorem unpackFrom_one_more {E : Env μ} (L : E.Laws) {F : File μ} (hv : F.Pre E) (hn : F.header.nchunks = F.chunks.length + 1) :
    (∃ e, unpackFrom E (F.bytes E) = (.error e, F.data)) ∨ ∃ x, unpackFrom E (F.bytes E) = (.ok F.metadata, F.data ++ x) := by
  obtain ⟨lo, h1⟩ := unpackFrom_pre L hv
  have hk : F.header.nchunks.toNat - F.chunks.length = 0 + 1 := by omega
  by_cases h16 : 16 ≤ F.junk.length
  · obtain ⟨h2, h3⟩ := unpackLoop_round (E := E) (h := F.header) (impl := F.impl E) (F.front E ++ F.body E) F.junk []
      F.data lo 0 F.chunks.length h16 _ _ _ rfl rfl rfl
    by_cases hbad : (List.take (F.impl E).size (List.drop (leDecode (slice F.junk 12 16)) F.junk) ≠ [] ∧
        List.take (F.impl E).size (List.drop (leDecode (slice F.junk 12 16)) F.junk) ≠
          (F.impl E).function (F.junk.take (leDecode (slice F.junk 12 16))))
    · left
      rw [h1, hk, h2 hbad]
      exact ⟨.checksumMismatch, by simp [Except.map]⟩
    · cases hde : E.decompress (F.junk.take (leDecode (slice F.junk 12 16))) with
      | error e =>
        left
        rw [h1, hk, (h3 hbad).1 e hde]
        exact ⟨e, by simp [Except.map]⟩
      | ok x =>
        right
        rw [h1, hk, (h3 hbad).2 x hde]
        exact ⟨x, by simp [unpackLoop, Proc.pure, Except.map]⟩
  · obtain ⟨e, s, h2⟩ := unpackLoop_short (E := E) (h := F.header) (impl := F.impl E) (F.front E ++ F.body E) F.junk []
      (Z F.data [] lo) 0 F.chunks.length (by omega)
    left
    rw [h1, hk, h2]
    exact ⟨e, by simp [Except.map]⟩

theorem grown_bytes {E : Env μ} {F : File μ} {init C : List (Bytes × Bytes)} {n : Nat} (tail O : Bytes) :
    ({ grownFile E F init C n tail with offsets := O } : File μ).bytes E =
      ((grownFile E F init C n tail).header.bytes ++ F.secBytes E) ++ (O ++
        (Spec.records (F.impl E).function (init.map (·.1)) ++ (Spec.records (F.impl E).function (C.map (·.1)) ++
          tail.drop (Spec.records (F.impl E).function (C.map (·.1))).length))) := by
  show ((grownFile E F init C n tail).header.bytes ++ (F.secBytes E ++ O)) ++
    (Spec.records (F.impl E).function ((init ++ C).map (·.1)) ++ _) = _
  rw [List.map_append, records_append]
  simp [grownFile]

/-- the file right after the header was written -/
theorem replay_header {E : Env μ} {F : File μ} {init C : List (Bytes × Bytes)} {n : Nat} (tail : Bytes) :
    Spec.replay (headPart E F init ++ tail) (seqLog (headPart E F init).length (chunksWrites (F.impl E) (C.map (·.1))) ++
      [(0, (grownFile E F init C n tail).header.bytes)]) =
    ({ grownFile E F init C n tail with offsets := F.offsets } : File μ).bytes E := by
  rw [replay_append, replay_seqLog_over, chunksWrites_flatten, replay_cons, replay_nil, grown_bytes]
  have := overlay_mid [] F.header.bytes (F.secBytes E ++ (F.offsets ++
      (Spec.records (F.impl E).function (init.map (·.1)) ++ (Spec.records (F.impl E).function (C.map (·.1)) ++
      tail.drop (Spec.records (F.impl E).function (C.map (·.1))).length))))
      (grownFile E F init C n tail).header.bytes
      (by rw [BloscpackHeader.bytes_length, BloscpackHeader.bytes_length]; exact Nat.le_refl _)
  rw [show F.header.bytes.drop (grownFile E F init C n tail).header.bytes.length = [] from
    List.drop_of_length_le (by rw [BloscpackHeader.bytes_length, BloscpackHeader.bytes_length]; exact Nat.le_refl _)] at this
  simp only [List.nil_append, List.append_nil, List.length_nil] at this
  rw [List.append_assoc, ← this]
  simp [headPart, File.front]

/-- the offsets, or a part of them, are written over the old ones -/
theorem offsets_torn {E : Env μ} (L : E.Laws) {F : File μ} {init : List (Bytes × Bytes)} {p : Bytes × Bytes}
    (hc : F.Conforming E) (ho : F.header.offsets = true) (hch : F.chunks = init ++ [p])
    {new : Bytes} {a : BloscArgs} {chs : List (Bytes × Bytes)} {q : Bytes × Bytes} {k : Int} (hg : Grown E F p new a chs q k)
    (tail O : Bytes) (hO : O.length ≤ F.offsets.length) :
    unpackFrom E (overlay (({ grownFile E F init (chs ++ [q]) q.2.length tail with offsets := F.offsets } : File μ).bytes E)
      (32 + (F.secBytes E).length) O) = (.ok F.metadata, F.data ++ new) := by
  have h32 : 32 + (F.secBytes E).length =
      ((grownFile E F init (chs ++ [q]) q.2.length tail).header.bytes ++ F.secBytes E).length := by
    rw [List.length_append, BloscpackHeader.bytes_length]
  rw [grown_bytes, h32, overlay_mid _ _ _ _ hO, ← grown_bytes]
  exact (unpackFrom_grown L hc ho hch hg tail _ (by simp; omega))

theorem grownLog_parts {E : Env μ} {F : File μ} {init : List (Bytes × Bytes)} {p : Bytes × Bytes}
    (hc : F.Conforming E) (ho : F.header.offsets = true) (hch : F.chunks = init ++ [p])
    {new : Bytes} {a : BloscArgs} {chs : List (Bytes × Bytes)} {q : Bytes × Bytes} {k : Int} (hg : Grown E F p new a chs q k)
    (tail : Bytes) : ∃ offs, grownLog E F init chs q tail =
      seqLog (headPart E F init).length (chunksWrites (F.impl E) ((chs ++ [q]).map (·.1))) ++
        ((0, (grownFile E F init (chs ++ [q]) q.2.length tail).header.bytes) :: offs) ∧
      (offs = [] ∨ ∃ O, offs = [(32 + (F.secBytes E).length, O)] ∧ O.length ≤ F.offsets.length) := by
  refine ⟨_, rfl, ?_⟩
  split
  · exact .inl rfl
  · refine .inr ⟨_, rfl, ?_⟩
    have hn : F.header.nchunks = init.length + 1 := by rw [hc.nchunks, hch]; simp
    have hno := hg.number
    have hsp := hg.space
    rw [hc.offsets_len, int64s_length, positions_length]
    unfold offsetsLen
    simp [ho]
    omega

theorem stopped_grown {E : Env μ} (L : E.Laws) {F : File μ} {init : List (Bytes × Bytes)} {p : Bytes × Bytes}
    (hc : F.Conforming E) (ho : F.header.offsets = true) (hch : F.chunks = init ++ [p])
    {new : Bytes} {a : BloscArgs} {chs : List (Bytes × Bytes)} {q : Bytes × Bytes} {k : Int} (hg : Grown E F p new a chs q k)
    (tail : Bytes) {done todo : List (Nat × Bytes)} (hlog : grownLog E F init chs q tail = done ++ todo) :
    (∃ T, Spec.replay (headPart E F init ++ tail) done = headPart E F init ++ T) ∨
      unpackFrom E (Spec.replay (headPart E F init ++ tail) done) = (.ok F.metadata, F.data ++ new) := by
  obtain ⟨offs, hparts, hoffs⟩ := grownLog_parts hc ho hch hg tail
  rw [hparts] at hlog
  rcases List.append_eq_append_iff.1 hlog with ⟨a, rfl, h4⟩ | ⟨c, h4, -⟩
  · cases a with
    | nil =>
      left
      rw [List.append_nil, replay_seqLog_over]
      exact ⟨_, rfl⟩
    | cons w a =>
      right
      simp only [List.cons_append, List.cons.injEq] at h4
      obtain ⟨rfl, h4⟩ := h4
      rw [List.append_cons, replay_append, replay_header]
      cases a with
      | nil => rw [replay_nil]; exact (unpackFrom_grown L hc ho hch hg tail _ rfl)
      | cons w a =>
        rcases hoffs with rfl | ⟨O, rfl, hO⟩
        · cases h4
        · simp only [List.cons_append, List.cons.injEq] at h4
          obtain ⟨rfl, h4⟩ := h4
          rw [(List.append_eq_nil_iff.1 h4.symm).1, replay_cons, replay_nil]
          exact offsets_torn L hc ho hch hg tail O hO
  · obtain ⟨x, y, -, rfl⟩ := seqLog_prefix _ _ h4
    left
    rw [replay_seqLog_over]
    exact ⟨_, rfl⟩

theorem torn_grown {E : Env μ} (L : E.Laws) {F : File μ} {init : List (Bytes × Bytes)} {p : Bytes × Bytes}
    (hc : F.Conforming E) (ho : F.header.offsets = true) (hch : F.chunks = init ++ [p])
    {new : Bytes} {a : BloscArgs} {chs : List (Bytes × Bytes)} {q : Bytes × Bytes} {k : Int} (hg : Grown E F p new a chs q k)
    (tail : Bytes) {done todo : List (Nat × Bytes)} {pos : Nat} {bs : Bytes}
    (hlog : grownLog E F init chs q tail = done ++ ((pos, bs) :: todo)) (hpos : pos ≠ 0) (t : Nat) :
    (∃ T, overlay (Spec.replay (headPart E F init ++ tail) done) pos (bs.take t) = headPart E F init ++ T) ∨
      unpackFrom E (overlay (Spec.replay (headPart E F init ++ tail) done) pos (bs.take t)) = (.ok F.metadata, F.data ++ new) := by
  obtain ⟨offs, hparts, hoffs⟩ := grownLog_parts hc ho hch hg tail
  rw [hparts] at hlog
  rcases List.append_eq_append_iff.1 hlog with ⟨a, rfl, h4⟩ | ⟨c, h4, h5⟩
  · right
    cases a with
    | nil =>
      simp only [List.nil_append, List.cons.injEq, Prod.mk.injEq] at h4
      exact absurd h4.1.1.symm hpos
    | cons w a =>
      simp only [List.cons_append, List.cons.injEq] at h4
      obtain ⟨rfl, h4⟩ := h4
      rcases hoffs with rfl | ⟨O, rfl, hO⟩
      · cases a <;> cases h4
      · cases a with
        | cons w a => cases a <;> simp at h4
        | nil =>
          simp only [List.nil_append, List.cons.injEq, Prod.mk.injEq] at h4
          obtain ⟨⟨rfl, rfl⟩, -⟩ := h4
          rw [replay_header]
          exact offsets_torn L hc ho hch hg tail _ (by rw [List.length_take]; omega)
  · cases c with
    | nil =>
      simp only [List.nil_append, List.cons.injEq, Prod.mk.injEq] at h5
      exact absurd h5.1.1 hpos
    | cons w c =>
      simp only [List.cons_append, List.cons.injEq] at h5
      obtain ⟨rfl, h5⟩ := h5
      obtain ⟨x, y, -, rfl, rfl⟩ := seqLog_split _ _ h4
      left
      rw [replay_seqLog_over, ← List.append_assoc, ← List.length_append, overlay_append]
      exact ⟨x.flatten ++ (bs.take t ++ (tail.drop x.flatten.length).drop (bs.take t).length), by simp⟩

/-- what there may be on disk when an append is interrupted and the header is not written in part -/
theorem append_torn_cases {E : Env μ} (L : E.Laws) {F : File μ} (hc : F.Conforming E) (hnn : F.NoNull) {new : Bytes} {args : AppendArgs}
    {r : Except Err Int} {fp : FP} (hrun : appendFp E { data := new } new.length args { data := F.bytes E } = (r, fp))
    {d : Bytes} (hcrash : Spec.CrashedBut 0 (F.bytes E) fp.log d) :
    ∃ init p, F.chunks = init ++ [p] ∧ ((∃ T, d = headPart E F init ++ T) ∨
      unpackFrom E d = (.ok F.metadata, F.data ++ new)) := by
  cases ho : F.header.offsets with
  | false =>
    obtain ⟨init, p, hch, -⟩ := hc.lengths
    refine ⟨init, p, hch, .inl ?_⟩
    have h2 := append_no_offsets L hc.toPre ho { data := new } new.length args []
    rw [hrun] at h2
    have h3 : fp.log = [] := by rw [(Prod.mk.inj h2).2]; rfl
    have hb := File.bytes_split (E := E) hch
    rw [h3] at hcrash
    rcases hcrash with ⟨done, todo, h4, rfl⟩ | ⟨done, p, bs, todo, t, -, h4, -⟩
    · rw [(List.append_eq_nil_iff.1 h4.symm).1]
      exact ⟨_, hb⟩
    · cases done <;> cases h4
  | true =>
    obtain ⟨init, p, hch, hlast, h2⟩ := append_cases L hc ho hnn hrun
    refine ⟨init, p, hch, ?_⟩
    have hb := File.bytes_split (E := E) hch
    have hpref : ∀ done todo, fp.log = done ++ todo → fp.log = [] ∨ ∃ chs q k todo', Grown E F p new (args.filled F.header) chs q k ∧
        grownLog E F init chs q (p.1 ++ ((F.impl E).function p.1 ++ F.junk)) = done ++ (todo ++ todo') := by
      intro done todo h1
      rcases h2 with ⟨e, -, -, hl, -⟩ | ⟨chs, q, k, hg, ⟨-, -, -, hl⟩ | ⟨-, -, -, rest, hl⟩⟩
      · exact .inl hl
      · right; exact ⟨chs, q, k, [], hg, by rw [List.append_nil, ← h1, hl]; rfl⟩
      · right; exact ⟨chs, q, k, rest, hg, by rw [List.nil_append] at hl; rw [hl, h1, List.append_assoc]⟩
    rcases hcrash with ⟨done, todo, h1, rfl⟩ | ⟨done, pos, bs, todo, t, hpos, h1, rfl⟩
    · rcases hpref _ _ h1 with hl | ⟨chs, q, k, todo', hg, hlog⟩
      · rw [hl] at h1
        rw [(List.append_eq_nil_iff.1 h1.symm).1]
        exact .inl ⟨_, hb⟩
      · rw [hb]
        exact stopped_grown L hc ho hch hg _ hlog
    · rcases hpref _ _ h1 with hl | ⟨chs, q, k, todo', hg, hlog⟩
      · rw [hl] at h1
        cases done <;> cases h1
      · rw [hb]
        exact torn_grown L hc ho hch hg _ hlog hpos t

/-- C78: an append that is interrupted, even in the middle of a write (only the 32 bytes of the header are written at once), harms at
most the last chunk: unpacking the file gives the metadata, or fails, and either way the data of all chunks but the last come out
unharmed. -/
theorem C78_last_chunk_only (E : Env μ) (L : E.Laws) (F : File μ) (hc : F.Conforming E) (hnn : F.NoNull)
    (new : Bytes) (args : AppendArgs) (r : Except Err Int) (fp : FP)
    (hrun : appendFp E { data := new } new.length args { data := F.bytes E } = (r, fp))
    (d : Bytes) (hcrash : Spec.CrashedBut 0 (F.bytes E) fp.log d) :
    ∃ more, ((∃ e, unpackFrom E d = (.error e, F.data.take ((F.header.nchunks - 1) * F.header.chunk_size).toNat ++ more)) ∨
      unpackFrom E d = (.ok F.metadata, F.data.take ((F.header.nchunks - 1) * F.header.chunk_size).toNat ++ more)) := by
  obtain ⟨init0, p0, e1, e2, e3⟩ := hc.lengths
  obtain ⟨init, p, hch, h⟩ := append_torn_cases L hc hnn hrun hcrash
  have hp : init = init0 ∧ p = p0 := by
    rw [hch] at e1
    have := List.append_inj' e1 rfl
    simpa using this
  obtain ⟨rfl, rfl⟩ := hp
  have hn : F.header.nchunks = init.length + 1 := by rw [hc.nchunks, hch]; simp
  have hcs : 0 ≤ F.header.chunk_size := by rcases hc.sizes with h | h <;> omega
  have hlen : ((init.map (·.2)).flatten.length : Int) = init.length * F.header.chunk_size := by
    clear h hch hn e1
    induction init with
    | nil => simp
    | cons x xs ih =>
      have h1 := e2 x (by simp)
      have h2 := ih (fun q hq => e2 q (by simp [hq]))
      rw [List.map_cons, List.flatten_cons, List.length_append, List.length_cons]
      push_cast
      rw [h2, h1, Int.add_mul]
      omega
  have htake : F.data.take ((F.header.nchunks - 1) * F.header.chunk_size).toNat = (init.map (·.2)).flatten := by
    rw [hn, show ((init.length : Int) + 1 - 1) = init.length by omega, ← hlen, Int.toNat_natCast, File.data, hch]
    simp
  rw [htake]
  rcases h with ⟨T, rfl⟩ | h
  · have hG : ({ F with chunks := init, junk := T } : File μ).Pre E := by
      refine ⟨hc.ok, hc.version, hc.meta_flag, hc.sec_ok, hc.offsets_len, hc.offsets_small, ?_, ?_⟩
      · show (init.length : Int) ≤ F.header.nchunks; omega
      · intro q hq; exact hc.chunks_ok q (by rw [hch]; simp [show q ∈ init from hq])
    have hbytes : ({ F with chunks := init, junk := T } : File μ).bytes E = headPart E F init ++ T := by
      simp [File.bytes, headPart, File.front, File.body, File.impl, File.secBytes]
    rw [← hbytes]
    rcases unpackFrom_one_more L hG hn with ⟨e, h⟩ | ⟨x, h⟩
    · exact ⟨[], .inl ⟨e, by rw [h, List.append_nil]; rfl⟩⟩
    · exact ⟨x, .inr (by rw [h]; rfl)⟩
  · refine ⟨p.2 ++ new, .inr ?_⟩
    rw [h, File.data, hch]
    simp

/-- everything but the header, the offsets and the last chunk -/
def KeptBut (E : Env μ) (F : File μ) (init : List (Bytes × Bytes)) (d : Bytes) : Prop :=
  ∃ head offs rest : Bytes, head.length = 32 ∧ offs.length = F.offsets.length ∧
    d = head ++ (F.secBytes E ++ (offs ++ (Spec.records (F.impl E).function (init.map (·.1)) ++ rest)))

def Harmless (E : Env μ) (F : File μ) (init : List (Bytes × Bytes)) (w : Nat × Bytes) : Prop :=
  (w.1 = 0 ∧ w.2.length ≤ 32) ∨ (w.1 = 32 + (F.secBytes E).length ∧ w.2.length ≤ F.offsets.length) ∨ (headPart E F init).length ≤ w.1

theorem Harmless.take {E : Env μ} {F : File μ} {init : List (Bytes × Bytes)} {p : Nat} {bs : Bytes} (h : Harmless E F init (p, bs)) (t : Nat) :
    Harmless E F init (p, bs.take t) := by
  have : (bs.take t).length ≤ bs.length := by simp; omega
  rcases h with ⟨h1, h2⟩ | ⟨h1, h2⟩ | h1
  · exact .inl ⟨h1, Nat.le_trans this h2⟩
  · exact .inr (.inl ⟨h1, Nat.le_trans this h2⟩)
  · exact .inr (.inr h1)

theorem overlay_beyond (A R bs : Bytes) {p : Nat} (h : A.length ≤ p) : ∃ R', overlay (A ++ R) p bs = A ++ R' := by
  unfold overlay
  split
  · exact ⟨R, rfl⟩
  · rw [List.take_append, List.take_of_length_le h]
    exact ⟨_, by rw [List.append_assoc, List.append_assoc, List.append_assoc]⟩

theorem KeptBut.overlay {E : Env μ} {F : File μ} {init : List (Bytes × Bytes)} {d : Bytes} (h : KeptBut E F init d) {w : Nat × Bytes}
    (hw : Harmless E F init w) : KeptBut E F init (overlay d w.1 w.2) := by
  obtain ⟨p, bs⟩ := w
  obtain ⟨head, offs, rest, h1, h2, rfl⟩ := h
  rcases hw with ⟨rfl, h4⟩ | ⟨rfl, h4⟩ | h3
  · have := overlay_mid [] head (F.secBytes E ++ (offs ++ (Spec.records (F.impl E).function (init.map (·.1)) ++ rest))) bs
      (by rw [h1]; exact h4)
    simp only [List.nil_append, List.length_nil] at this
    exact ⟨bs ++ head.drop bs.length, offs, rest, by simp; have : bs.length ≤ 32 := h4; omega, h2, this⟩
  · have := overlay_mid (head ++ F.secBytes E) offs (Spec.records (F.impl E).function (init.map (·.1)) ++ rest) bs
      (by rw [h2]; exact h4)
    rw [List.length_append, h1, List.append_assoc, List.append_assoc] at this
    exact ⟨head, bs ++ offs.drop bs.length, rest, h1, by simp; have : bs.length ≤ F.offsets.length := h4; omega, this⟩
  · have hl : (head ++ (F.secBytes E ++ (offs ++ Spec.records (F.impl E).function (init.map (·.1))))).length ≤ p := by
      refine Nat.le_trans (Nat.le_of_eq ?_) h3
      simp [headPart, File.front, h1, h2, BloscpackHeader.bytes_length]
    obtain ⟨R', h5⟩ := overlay_beyond _ rest bs hl
    simp only [List.append_assoc] at h5
    exact ⟨head, offs, R', h1, h2, h5⟩

theorem KeptBut.replay {E : Env μ} {F : File μ} {init : List (Bytes × Bytes)} {d : Bytes} (h : KeptBut E F init d) {log : List (Nat × Bytes)}
    (hw : ∀ w ∈ log, Harmless E F init w) : KeptBut E F init (Spec.replay d log) := by
  induction log generalizing d with
  | nil => exact h
  | cons w ws ih =>
    rw [replay_cons]
    exact ih (h.overlay (hw w (by simp))) (fun v hv => hw v (by simp [hv]))

theorem seqLog_beyond (p : Nat) (bss : List Bytes) : ∀ w ∈ seqLog p bss, p ≤ w.1 := by
  induction bss generalizing p with
  | nil => simp [seqLog]
  | cons b bs ih =>
    intro w hw
    simp only [seqLog, List.mem_cons] at hw
    rcases hw with rfl | hw
    · exact Nat.le_refl _
    · exact Nat.le_trans (Nat.le_add_right _ _) (ih _ w hw)

/-- all writes of an append -/
theorem append_writes {E : Env μ} (L : E.Laws) {F : File μ} (hc : F.Conforming E) (hnn : F.NoNull)
    {new : Bytes} {args : AppendArgs} {r : Except Err Int} {fp : FP}
    (hrun : appendFp E { data := new } new.length args { data := F.bytes E } = (r, fp)) :
    ∃ init p, F.chunks = init ++ [p] ∧ ∀ w ∈ fp.log, Harmless E F init w ∧
      (32 ≤ w.1 ∨ ∃ chs q k tail, Grown E F p new (args.filled F.header) chs q k ∧
        w = (0, (grownFile E F init (chs ++ [q]) q.2.length tail).header.bytes)) := by
  cases ho : F.header.offsets with
  | false =>
    obtain ⟨init, p, hch, -⟩ := hc.lengths
    have h2 := append_no_offsets L hc.toPre ho { data := new } new.length args []
    rw [hrun] at h2
    have h3 : fp.log = [] := by rw [(Prod.mk.inj h2).2]; rfl
    exact ⟨init, p, hch, by simp [h3]⟩
  | true =>
    obtain ⟨init, p, hch, hlast, h2⟩ := append_cases L hc ho hnn hrun
    refine ⟨init, p, hch, ?_⟩
    have hall : ∀ chs q k, Grown E F p new (args.filled F.header) chs q k → ∀ w ∈
        grownLog E F init chs q (p.1 ++ ((F.impl E).function p.1 ++ F.junk)), Harmless E F init w ∧
      (32 ≤ w.1 ∨ ∃ chs q k tail, Grown E F p new (args.filled F.header) chs q k ∧
        w = (0, (grownFile E F init (chs ++ [q]) q.2.length tail).header.bytes)) := by
      intro chs q k hg w hw
      obtain ⟨offs, hparts, hoffs⟩ := grownLog_parts hc ho hch hg (p.1 ++ ((F.impl E).function p.1 ++ F.junk))
      rw [hparts] at hw
      rcases List.mem_append.1 hw with hw | hw
      · have := seqLog_beyond _ _ w hw
        refine ⟨.inr (.inr this), .inl (Nat.le_trans ?_ this)⟩
        simp [headPart, File.front, BloscpackHeader.bytes_length, Nat.add_assoc]
      · rcases List.mem_cons.1 hw with rfl | hw
        · exact ⟨.inl ⟨rfl, by show (BloscpackHeader.bytes _).length ≤ 32; rw [BloscpackHeader.bytes_length]; exact Nat.le_refl _⟩,
            .inr ⟨chs, q, k, _, hg, rfl⟩⟩
        · rcases hoffs with rfl | ⟨O, rfl, hO⟩
          · cases hw
          · rw [List.mem_singleton.1 hw]
            exact ⟨.inr (.inl ⟨rfl, hO⟩), .inl (Nat.le_add_right _ _)⟩
    rcases h2 with ⟨e, -, -, hl, -⟩ | ⟨chs, q, k, hg, ⟨-, -, -, hl⟩ | ⟨-, -, -, rest, hl⟩⟩
    · simp [hl]
    · rw [hl]; exact hall chs q k hg
    · rw [List.nil_append] at hl
      exact fun w hw => hall chs q k hg w (by rw [hl]; exact List.mem_append_left _ hw)

theorem KeptBut.start {E : Env μ} {F : File μ} {init : List (Bytes × Bytes)} {p : Bytes × Bytes} (hch : F.chunks = init ++ [p]) :
    KeptBut E F init (F.bytes E) := by
  refine ⟨F.header.bytes, F.offsets, p.1 ++ ((F.impl E).function p.1 ++ F.junk), BloscpackHeader.bytes_length _, rfl, ?_⟩
  have := File.bytes_split (E := E) hch
  simp only [headPart, File.front, List.append_assoc] at this
  exact this

/-- C78: an append that is interrupted anywhere, even in the middle of writing the header, leaves the metadata section and every chunk but
the last with its digest exactly as they were, at their places: only the 32 bytes of the header, the offsets and what follows the chunk
before the last can differ. -/
theorem C78_untouched_bytes (E : Env μ) (L : E.Laws) (F : File μ) (hc : F.Conforming E) (hnn : F.NoNull)
    (new : Bytes) (args : AppendArgs) (r : Except Err Int) (fp : FP)
    (hrun : appendFp E { data := new } new.length args { data := F.bytes E } = (r, fp))
    (d : Bytes) (hcrash : Spec.Crashed (F.bytes E) fp.log d) :
    ∃ head offs rest : Bytes, head.length = 32 ∧ offs.length = F.offsets.length ∧
      d = head ++ (F.secBytes E ++ (offs ++ (Spec.records (F.impl E).function (F.chunks.dropLast.map (·.1)) ++ rest))) := by
  obtain ⟨init, p, hch, hw⟩ := append_writes L hc hnn hrun
  rw [hch, List.dropLast_concat]
  rcases hcrash with rfl | ⟨done, pos, bs, todo, t, h1, rfl⟩
  · exact KeptBut.start hch
  · rw [h1] at hw
    exact ((KeptBut.start hch).replay (fun w hm => (hw w (by simp [hm])).1)).overlay (w := (pos, bs.take t))
      (Harmless.take (hw (pos, bs) (by simp)).1 t)

/-! ### examples -/

/-- The append of C27's example, interrupted after 0, 4, 5, … bytes of the first write (the chunk that replaces the last one, 18 bytes):
the first chunk always comes out, the last one does not once its bytes differ. -/
example : (packBytesToBytes Toy.env [1, 2, 3] (.int 2) (some 5) {} { max_app_chunks := .int 2 }
      { max_meta_size := .int 12 }).toOption.map (fun out =>
    let fp := (appendFp Toy.env { data := [4, 5, 6] } 3 {} { data := out }).2
    [0, 4, 5, 10, 17, 18].map fun t =>
      let r := unpackFrom Toy.env (overlay out fp.log.head!.1 (fp.log.head!.2.take t))
      (r.1.toOption, r.2)) =
    some [(some (some 5), [1, 2, 3]), (some (some 5), [1, 2, 3]), (none, [1, 2]), (none, [1, 2]), (none, [1, 2]), (none, [1, 2])] := by
  decide +kernel

/-- Interrupted in the middle of the offsets, it unpacks to everything. -/
example : (packBytesToBytes Toy.env [1, 2, 3] (.int 2) (some 5) {} { max_app_chunks := .int 2 }
      { max_meta_size := .int 12 }).toOption.map (fun out =>
    let fp := (appendFp Toy.env { data := [4, 5, 6] } 3 {} { data := out }).2
    (unpackBytesFromBytes Toy.env (overlay (Spec.replay out (fp.log.take 5)) fp.log.getLast!.1 (fp.log.getLast!.2.take 3))).toOption) =
      some (some ([1, 2, 3, 4, 5, 6], some 5)) := by
  decide +kernel

end Bloscpack
