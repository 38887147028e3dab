import Verif.Lemmas.Logged
import Verif.Props.Append
import Verif.Props.Crash
/-
C27: interrupted appends.
-/
namespace Bloscpack
variable {μ : Type}

/-! ### lemmas -/

theorem replay_seqLog_over (A T : Bytes) (bss : List Bytes) :
    Spec.replay (A ++ T) (seqLog A.length bss) = A ++ (bss.flatten ++ T.drop bss.flatten.length) := by
  induction bss generalizing A T with
  | nil => simp [seqLog, Spec.replay]
  | cons b bs ih =>
    show Spec.replay (overlay (A ++ T) A.length b) (seqLog (A.length + b.length) bs) = _
    rw [overlay_append, ← List.length_append, ih]
    simp [List.drop_drop]

theorem replay_nil (d : Bytes) : Spec.replay d [] = d := rfl
theorem replay_cons (d : Bytes) (p : Nat) (bs : Bytes) (l : List (Nat × Bytes)) :
    Spec.replay d ((p, bs) :: l) = Spec.replay (overlay d p bs) l := rfl

theorem seqLog_prefix (p : Nat) (bss : List Bytes) {done todo} (h : seqLog p bss = done ++ todo) :
    ∃ x y, bss = x ++ y ∧ done = seqLog p x := by
  cases todo with
  | nil => exact ⟨bss, [], by simp, by simpa using h.symm⟩
  | cons w ws =>
    obtain ⟨q, bs⟩ := w
    obtain ⟨x, y, h1, h2, -⟩ := seqLog_split p bss h
    exact ⟨x, bs :: y, h1, h2⟩

/-- one more chunk is to come: it is readable, what follows may be anything -/
theorem unpackFrom_next {E : Env μ} (L : E.Laws) {F : File μ} (hv : F.Pre E) (hn : F.header.nchunks = F.chunks.length + 1)
    {c d X : Bytes} (hj : F.junk = c ++ X) (hd : E.decompress c = .ok d) :
    unpackFrom E (F.bytes E) = (.error .checksumMismatch, F.data) ∨
    unpackFrom E (F.bytes E) = (.ok F.metadata, F.data ++ d) := by
  obtain ⟨lo, h1⟩ := unpackFrom_pre L hv
  have hk : F.header.nchunks.toNat - F.chunks.length = 0 + 1 := by omega
  obtain ⟨f1, f2⟩ := framed_of_decompress L hd
  have hs : leDecode (slice F.junk 12 16) = c.length := by rw [hj, slice_append_left _ _ _ _ f1, f2]
  have e1 : c = F.junk.take (leDecode (slice F.junk 12 16)) := by rw [hs, hj]; simp
  obtain ⟨h2, h3⟩ := unpackLoop_round (E := E) (h := F.header) (impl := F.impl E) (F.front E ++ F.body E) F.junk []
    F.data lo 0 F.chunks.length (by rw [hj]; simp; omega) c _ _ e1 rfl rfl
  by_cases hbad : (List.take (F.impl E).size (List.drop (leDecode (slice F.junk 12 16)) F.junk) ≠ [] ∧
      List.take (F.impl E).size (List.drop (leDecode (slice F.junk 12 16)) F.junk) ≠ (F.impl E).function c)
  · left
    rw [h1, hk, h2 hbad]
    simp [Except.map]
  · right
    rw [h1, hk, (h3 hbad).2 d hd]
    simp [unpackLoop, Proc.pure, Except.map]

/-- the last chunk was replaced by another readable one, followed by anything -/
theorem unpack_replaced {E : Env μ} (L : E.Laws) {F : File μ} {init : List (Bytes × Bytes)} {p : Bytes × Bytes}
    (hv : F.Valid E) (hch : F.chunks = init ++ [p]) {c d : Bytes} (hd : E.decompress c = .ok d) (X : Bytes) :
    unpackBytesFromBytes E (headPart E F init ++ (c ++ X)) = .error .checksumMismatch ∨
    unpackBytesFromBytes E (headPart E F init ++ (c ++ X)) = .ok ((init.map (·.2)).flatten ++ d, F.metadata) := by
  have hlen : F.header.nchunks = init.length + 1 := by rw [hv.nchunks, hch]; simp
  have hG : ({ F with chunks := init, junk := c ++ X } : File μ).Pre E := by
    refine ⟨hv.ok, hv.version, hv.meta_flag, hv.sec_ok, hv.offsets_len, hv.offsets_small, ?_, ?_⟩
    · show (init.length : Int) ≤ F.header.nchunks; omega
    · intro q hq; exact hv.chunks_ok q (by rw [hch]; simp [show q ∈ init from hq])
  have hbytes : ({ F with chunks := init, junk := c ++ X } : File μ).bytes E = headPart E F init ++ (c ++ X) := by
    simp [File.bytes, headPart, File.front, File.body, File.impl, File.secBytes]
  rw [← hbytes]
  rcases unpackFrom_next L hG hlen rfl hd with h | h
  · exact .inl (unpackBytes_error h (by decide))
  · exact .inr (unpackBytes_ok h)

/-- after the header was written, whatever there is in the offsets section -/
theorem unpackFrom_grown {E : Env μ} (L : E.Laws) {F : File μ} {init : List (Bytes × Bytes)} {p : Bytes × Bytes}
    (hc : F.Conforming E) (ho : F.header.offsets = true) (hch : F.chunks = init ++ [p])
    {new : Bytes} {a : BloscArgs} {chs : List (Bytes × Bytes)} {q : Bytes × Bytes} {k : Int} (hg : Grown E F p new a chs q k)
    (tail O : Bytes) (hO : O.length = F.offsets.length) :
    unpackFrom E ({ grownFile E F init (chs ++ [q]) q.2.length tail with offsets := O }.bytes E) =
      (.ok F.metadata, F.data ++ new) := by
  have hn : F.header.nchunks = init.length + 1 := by rw [hc.nchunks, hch]; simp
  have hl : ((chs ++ [q]).length : Int) - 1 ≤ F.header.max_app_chunks := by
    have := hg.space; have := hg.number; simp; omega
  have hcs : 0 ≤ F.header.chunk_size := by rcases hc.sizes with h | h <;> omega
  have hG : ({ grownFile E F init (chs ++ [q]) q.2.length tail with offsets := O } : File μ).Valid E := {
    ok := grownFile_header_ok (E := E) (init := init) (tail := tail) hc.ok (by omega) hcs (by simp) hl (by omega) hg.last_le
    version := hc.version
    meta_flag := hc.meta_flag
    sec_ok := hc.sec_ok
    offsets_len := by
      show O.length = _
      rw [hO, hc.offsets_len]
      unfold offsetsLen
      simp only [grownFile]
      congr 2
      omega
    offsets_small := by
      have := hc.offsets_small
      unfold offsetsLen at this ⊢
      simp only [grownFile]
      rw [show F.header.nchunks + (((chs ++ [q]).length : Int) - 1) + (F.header.max_app_chunks - (((chs ++ [q]).length : Int) - 1)) =
        F.header.nchunks + F.header.max_app_chunks by omega]
      exact this
    nchunks_le := by show ((init ++ (chs ++ [q])).length : Int) ≤ F.header.nchunks + ((chs ++ [q]).length - 1); simp; omega
    nchunks := by show F.header.nchunks + (((chs ++ [q]).length : Int) - 1) = ((init ++ (chs ++ [q])).length : Int); simp; omega
    chunks_ok := by
      intro r hr
      rcases List.mem_append.1 hr with h | h
      · exact hc.chunks_ok r (by rw [hch]; exact List.mem_append_left _ h)
      · exact L.decompress_compress _ _ _ (hg.comp r h) }
  rw [unpackFrom_file L hG]
  have := hg.data hch tail
  exact congrArg (fun x => (Except.ok F.metadata, x)) this

theorem unpack_grown {E : Env μ} (L : E.Laws) {F : File μ} {init : List (Bytes × Bytes)} {p : Bytes × Bytes}
    (hc : F.Conforming E) (ho : F.header.offsets = true) (hch : F.chunks = init ++ [p])
    {new : Bytes} {a : BloscArgs} {chs : List (Bytes × Bytes)} {q : Bytes × Bytes} {k : Int} (hg : Grown E F p new a chs q k)
    (tail O : Bytes) (hO : O.length = F.offsets.length) :
    unpackBytesFromBytes E ({ grownFile E F init (chs ++ [q]) q.2.length tail with offsets := O }.bytes E) =
      .ok (F.data ++ new, F.metadata) :=
  unpackBytes_ok (unpackFrom_grown L hc ho hch hg tail O hO)

/-- C27: if an append is interrupted between two of its writes, unpacking the file either fails with ChecksumMismatch or
returns the old data followed by a beginning of the new, and the old metadata. -/
theorem C27_interrupted_append (E : Env μ) (L : E.Laws) (F : File μ) (hc : F.Conforming E) (hnn : F.NoNull)
    (new : Bytes) (args : AppendArgs) (r : Except Err Int) (fp : FP)
    (hrun : appendFp E { data := new } new.length args { data := F.bytes E } = (r, fp))
    (d : Bytes) (hstop : Spec.StoppedBetween (F.bytes E) fp.log d) :
    unpackBytesFromBytes E d = .error .checksumMismatch ∨
    ∃ t, unpackBytesFromBytes E d = .ok (F.data ++ new.take t, F.metadata) := by
  have horig : ∃ t, unpackBytesFromBytes E (F.bytes E) = .ok (F.data ++ new.take t, F.metadata) :=
    ⟨0, by rw [unpack_conforming L hc.toValid]; simp⟩
  obtain ⟨done, todo, h1, rfl⟩ := hstop
  cases ho : F.header.offsets with
  | false =>
    have h2 := append_no_offsets L hc.toPre ho { data := new } new.length args []
    rw [hrun] at h2
    have h3 : fp.log = [] := by rw [(Prod.mk.inj h2).2]; rfl
    rw [h3] at h1
    rw [(List.append_eq_nil_iff.1 h1.symm).1]
    exact .inr horig
  | true =>
    obtain ⟨init, p, hch, hlast, h2⟩ := append_cases L hc ho hnn hrun
    have hpref : done = [] ∨ ∃ chs q k todo, Grown E F p new (args.filled F.header) chs q k ∧
        grownLog E F init chs q (p.1 ++ ((F.impl E).function p.1 ++ F.junk)) = done ++ todo := by
      rcases h2 with ⟨e, -, -, hl, -⟩ | ⟨chs, q, k, hg, ⟨-, -, -, hl⟩ | ⟨-, -, -, rest, hl⟩⟩
      · left
        rw [hl] at h1
        exact (List.append_eq_nil_iff.1 h1.symm).1
      · right; exact ⟨chs, q, k, todo, hg, by rw [← h1, hl]; rfl⟩
      · right; exact ⟨chs, q, k, todo ++ rest, hg, by rw [List.nil_append] at hl; rw [hl, h1, List.append_assoc]⟩
    rcases hpref with rfl | ⟨chs, q, k, todo', hg, hlog⟩
    · exact .inr horig
    · have hb := File.bytes_split (E := E) hch
      generalize p.1 ++ ((F.impl E).function p.1 ++ F.junk) = tail at hlog hb
      rw [hb]
      have hcut : ∀ x y, chunksWrites (F.impl E) ((chs ++ [q]).map (·.1)) = x ++ y →
          unpackBytesFromBytes E (Spec.replay (headPart E F init ++ tail) (seqLog (headPart E F init).length x)) = .error .checksumMismatch ∨
          ∃ t, unpackBytesFromBytes E (Spec.replay (headPart E F init ++ tail) (seqLog (headPart E F init).length x)) =
            .ok (F.data ++ new.take t, F.metadata) := by
        intro x y hxy
        cases x with
        | nil =>
          rw [hb] at horig
          exact .inr horig
        | cons w x =>
          obtain ⟨r0, rs, hrs⟩ : ∃ r0 rs, chs ++ [q] = r0 :: rs := by cases chs <;> simp
          have hw : w = r0.1 := by
            rw [hrs] at hxy
            simp only [List.map_cons, chunksWrites, List.flatMap_cons, chunkWrites, List.cons_append, List.cons.injEq] at hxy
            exact hxy.1.symm
          subst hw
          rw [replay_seqLog_over, List.flatten_cons, List.append_assoc]
          have hdec := L.decompress_compress _ _ _ (hg.comp r0 (by rw [hrs]; simp))
          rcases unpack_replaced L hc.toValid hch hdec (x.flatten ++ tail.drop (r0.1 ++ x.flatten).length) with h | h
          · exact .inl h
          · right
            rw [h]
            have hge : p.2.length ≤ r0.2.length := by
              have hsz : (p.2.length : Int) ≤ F.header.chunk_size := by rw [hlast]; rcases hc.sizes with h | h <;> omega
              cases chs with
              | nil =>
                simp only [List.nil_append, List.cons.injEq] at hrs
                have hcont := congrArg List.length hg.content
                simp only [List.nil_append, List.map_cons, List.map_nil, List.flatten_cons, List.flatten_nil, List.append_nil,
                  List.length_append] at hcont
                rw [← hrs.1]; omega
              | cons r1 rs1 =>
                simp only [List.cons_append, List.cons.injEq] at hrs
                have := hg.full r1 (by simp)
                rw [← hrs.1]; omega
            have hcont := hg.content
            rw [hrs, List.map_cons, List.flatten_cons] at hcont
            have h4 := congrArg (List.take r0.2.length) hcont
            rw [List.take_left, List.take_append, List.take_of_length_le hge] at h4
            refine ⟨r0.2.length - p.2.length, ?_⟩
            rw [h4, File.data, hch]
            simp
      unfold grownLog at hlog
      rcases List.append_eq_append_iff.1 hlog with ⟨a, rfl, h4⟩ | ⟨c, h4, -⟩
      · cases a with
        | nil =>
          rw [List.append_nil]
          exact hcut _ [] (by simp)
        | cons w a =>
          right
          refine ⟨new.length, ?_⟩
          rw [List.take_length]
          simp only [List.cons_append, List.cons.injEq] at h4
          obtain ⟨rfl, h4⟩ := h4
          rw [replay_append, replay_seqLog_over, chunksWrites_flatten]
          have hbytes : ∀ O : Bytes, ({ grownFile E F init (chs ++ [q]) q.2.length tail with offsets := O } : File μ).bytes E =
              (grownFile E F init (chs ++ [q]) q.2.length tail).header.bytes ++ (F.secBytes E ++ (O ++
                (Spec.records (F.impl E).function (init.map (·.1)) ++ (Spec.records (F.impl E).function ((chs ++ [q]).map (·.1)) ++
                tail.drop (Spec.records (F.impl E).function ((chs ++ [q]).map (·.1))).length)))) := by
            intro O
            show ((grownFile E F init (chs ++ [q]) q.2.length tail).header.bytes ++ (F.secBytes E ++ O)) ++
              (Spec.records (F.impl E).function ((init ++ (chs ++ [q])).map (·.1)) ++ _) = _
            rw [List.map_append, records_append]
            simp [grownFile]
          have hhdr : overlay (headPart E F init ++ (Spec.records (F.impl E).function ((chs ++ [q]).map (·.1)) ++
                tail.drop (Spec.records (F.impl E).function ((chs ++ [q]).map (·.1))).length)) 0
                (grownFile E F init (chs ++ [q]) q.2.length tail).header.bytes =
              ({ grownFile E F init (chs ++ [q]) q.2.length tail with offsets := F.offsets } : File μ).bytes E := by
            rw [hbytes]
            have := overlay_mid [] F.header.bytes (F.secBytes E ++ (F.offsets ++
                (Spec.records (F.impl E).function (init.map (·.1)) ++ (Spec.records (F.impl E).function ((chs ++ [q]).map (·.1)) ++
                tail.drop (Spec.records (F.impl E).function ((chs ++ [q]).map (·.1))).length))))
                (grownFile E F init (chs ++ [q]) q.2.length tail).header.bytes
                (by rw [BloscpackHeader.bytes_length, BloscpackHeader.bytes_length]; exact Nat.le_refl _)
            rw [show F.header.bytes.drop (grownFile E F init (chs ++ [q]) q.2.length tail).header.bytes.length = [] from
              List.drop_of_length_le (by rw [BloscpackHeader.bytes_length, BloscpackHeader.bytes_length]; exact Nat.le_refl _)] at this
            simp only [List.nil_append, List.append_nil, List.length_nil] at this
            rw [← this]
            simp [headPart, File.front]
          rw [replay_cons, hhdr]
          cases a with
          | nil => rw [replay_nil]; exact unpack_grown L hc ho hch hg tail _ rfl
          | cons w a =>
            have hn : F.header.nchunks = init.length + 1 := by rw [hc.nchunks, hch]; simp
            have hno := hg.number
            have hsp := hg.space
            split at h4
            · cases h4
            · simp only [List.cons_append, List.cons.injEq] at h4
              obtain ⟨rfl, h4⟩ := h4
              rw [(List.append_eq_nil_iff.1 h4.symm).1]
              rw [replay_cons, replay_nil]
              generalize hO : Spec.int64s (Spec.positions (F.impl E).function (F.front E).length ((init ++ (chs ++ [q])).map (·.1))) = O
              have hle : O.length ≤ F.offsets.length := by
                rw [← hO, hc.offsets_len, int64s_length, positions_length]
                unfold offsetsLen
                simp [ho]
                omega
              rw [hbytes, ← List.append_assoc]
              have h32 : 32 + (F.secBytes E).length =
                  ((grownFile E F init (chs ++ [q]) q.2.length tail).header.bytes ++ F.secBytes E).length := by
                rw [List.length_append, BloscpackHeader.bytes_length]
              rw [h32, overlay_mid _ _ _ _ hle, List.append_assoc, ← hbytes]
              exact unpack_grown L hc ho hch hg tail _ (by simp; omega)
      · obtain ⟨x, y, h5, rfl⟩ := seqLog_prefix _ _ h4
        exact hcut x y h5

/-- C27: the recorded writes are all there is: performing them on the old contents gives the new contents, and the file
contains the old contents and the new contents at the two extreme points. -/
theorem C27_writes (E : Env μ) (d new : Bytes) (args : AppendArgs) (r : Except Err Int) (fp : FP)
    (hrun : appendFp E { data := new } new.length args { data := d } = (r, fp)) :
    fp.data = Spec.replay d fp.log ∧ Spec.StoppedBetween d fp.log d ∧ Spec.StoppedBetween d fp.log fp.data := by
  have h := Logged.opened (Logged.appendFp E { data := new } new.length args) d 0
  rw [hrun] at h
  exact ⟨h, ⟨[], fp.log, rfl, rfl⟩, ⟨fp.log, [], by simp, h⟩⟩

/-- An append that does six writes: the chunk that fills up the last one and its digest, a new chunk and its digest, the
header, the offsets. Unpacking after 0, 1, …, 6 of them: right after the last chunk is overwritten its digest does not
fit. -/
example : (packBytesToBytes Toy.env [1, 2, 3] (.int 2) (some 5) {} { max_app_chunks := .int 2 }
      { max_meta_size := .int 12 }).toOption.map (fun out =>
    let fp := (appendFp Toy.env { data := [4, 5, 6] } 3 {} { data := out }).2
    (List.range 7).map fun n => (unpackBytesFromBytes Toy.env (Spec.replay out (fp.log.take n))).toOption) =
      some [some ([1, 2, 3], some 5), none, some ([1, 2, 3, 4], some 5), some ([1, 2, 3, 4], some 5),
        some ([1, 2, 3, 4], some 5), some ([1, 2, 3, 4, 5, 6], some 5), some ([1, 2, 3, 4, 5, 6], some 5)] := by
  decide +kernel

end Bloscpack
