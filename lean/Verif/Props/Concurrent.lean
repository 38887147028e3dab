import Verif.Props.Shared
import Verif.Props.RewriteCrash
import Verif.Lemmas.Concurrent
/-
C87, C88: two processes that change one archive at the same time.
-/
namespace Bloscpack
variable {μ σ : Type}

/-! ### lemmas -/

/-- unpacking only ever adds to what has come out -/
theorem unpackLoop_extends {E : Env μ} (src : CompressedSource σ) (n i : Nat) (s : σ) (O : Bytes) (lo) :
    ∃ x r s' lo', unpackLoop src (plainFPSinkPut E) n i (s, Z O [] lo) = (r, (s', Z (O ++ x) [] lo')) := by
  induction n generalizing i s O lo with
  | zero => exact ⟨[], .ok (), s, lo, by rw [List.append_nil]; rfl⟩
  | succ n ih =>
    show ∃ x r s' lo', Proc.bind (Proc.onFst (src.next i)) _ (s, Z O [] lo) = _
    unfold Proc.bind
    rw [Proc.onFst_apply]
    generalize src.next i s = y
    obtain ⟨r, s1⟩ := y
    cases r with
    | error e => exact ⟨[], _, _, lo, by rw [List.append_nil]⟩
    | ok cd =>
      simp only
      show ∃ x r s' lo', Proc.bind (Proc.ofExcept (checkDigest src.checksumImpl cd.1 cd.2)) _ (s1, Z O [] lo) = _
      unfold Proc.bind Proc.ofExcept
      cases checkDigest src.checksumImpl cd.1 cd.2 with
      | error e => exact ⟨[], _, _, lo, by rw [List.append_nil]⟩
      | ok u =>
        simp only
        show ∃ x r s' lo', Proc.bind (Proc.onSnd (plainFPSinkPut E cd.1)) _ (s1, Z O [] lo) = _
        unfold Proc.bind
        rw [Proc.onSnd_apply]
        cases hd : E.decompress cd.1 with
        | error e =>
          have hp : plainFPSinkPut E cd.1 (Z O [] lo) = (.error e, Z O [] lo) := by
            unfold plainFPSinkPut
            rw [Proc.bind_of_error (Proc.ofExcept_apply _ _ |>.trans (by rw [hd]))]
          rw [hp]
          exact ⟨[], _, _, lo, by rw [List.append_nil]⟩
        | ok d =>
          have hp : plainFPSinkPut E cd.1 (Z O [] lo) = (.ok (), Z (O ++ d) [] (lo ++ [(O.length, d)])) := by
            unfold plainFPSinkPut
            rw [Proc.bind_of_ok (Proc.ofExcept_apply _ _ |>.trans (by rw [hd])), fpWrite_Z]
            simp
          rw [hp]
          simp only
          obtain ⟨x, r, s', lo', h⟩ := ih (i + 1) s1 (O ++ d) (lo ++ [(O.length, d)])
          exact ⟨d ++ x, r, s', lo', by rw [h, List.append_assoc]⟩

/-- a header that an append may give to the archive -/
def Heads (E : Env μ) (F : File μ) (h : BloscpackHeader) : Prop :=
  h.OK ∧ h.format_version = 3 ∧ h.metadata = F.header.metadata ∧ offsetsLen h = offsetsLen F.header ∧ F.header.nchunks ≤ h.nchunks ∧
    h.checksum = F.header.checksum

theorem Heads.self {E : Env μ} {F : File μ} (hc : F.Conforming E) : Heads E F F.header :=
  ⟨hc.ok, hc.version, rfl, rfl, Int.le_refl _, rfl⟩

theorem Heads.grown {E : Env μ} (L : E.Laws) {F : File μ} {init : List (Bytes × Bytes)} {p : Bytes × Bytes}
    (hc : F.Conforming E) (hch : F.chunks = init ++ [p])
    {new : Bytes} {a : BloscArgs} {chs : List (Bytes × Bytes)} {q : Bytes × Bytes} {k : Int} (hg : Grown E F p new a chs q k)
    (tail : Bytes) : Heads E F (grownFile E F init (chs ++ [q]) q.2.length tail).header := by
  have hv := grown_valid L hc hch hg tail F.offsets rfl
  refine ⟨hv.ok, hv.version, rfl, ?_, ?_, rfl⟩
  · rw [← hc.offsets_len]; exact hv.offsets_len.symm
  · show F.header.nchunks ≤ F.header.nchunks + _
    simp
    omega

theorem replay_head {P : BloscpackHeader → Prop} {h0 : BloscpackHeader} (hp : P h0) {T : Bytes} {log : List (Nat × Bytes)}
    (hw : ∀ w ∈ log, 32 ≤ w.1 ∨ ∃ h, P h ∧ w = (0, h.bytes)) :
    ∃ h T', P h ∧ Spec.replay (h0.bytes ++ T) log = h.bytes ++ T' := by
  induction log generalizing h0 T with
  | nil => exact ⟨h0, T, hp, rfl⟩
  | cons w ws ih =>
    rw [replay_cons]
    rcases hw w (by simp) with h | ⟨h, h1, rfl⟩
    · obtain ⟨R, hR⟩ := overlay_beyond h0.bytes T w.2 (p := w.1) (by rw [BloscpackHeader.bytes_length]; exact h)
      rw [hR]
      exact ih hp (fun v hv => hw v (by simp [hv]))
    · have := overlay_mid [] h0.bytes T h.bytes (by rw [BloscpackHeader.bytes_length, BloscpackHeader.bytes_length]; exact Nat.le_refl _)
      rw [List.drop_of_length_le (by rw [BloscpackHeader.bytes_length, BloscpackHeader.bytes_length]; exact Nat.le_refl _)] at this
      simp only [List.nil_append, List.append_nil, List.length_nil] at this
      simp only
      rw [this]
      exact ih h1 (fun v hv => hw v (by simp [hv]))

theorem Interleaved.mem {a b l : List (Nat × Bytes)} (h : Spec.Interleaved a b l) : ∀ w ∈ l, w ∈ a ∨ w ∈ b := by
  induction h with
  | done => simp
  | left v h ih =>
    intro w hw
    rcases List.mem_cons.1 hw with rfl | hw
    · simp
    · rcases ih w hw with h | h <;> simp [h]
  | right v h ih =>
    intro w hw
    rcases List.mem_cons.1 hw with rfl | hw
    · simp
    · rcases ih w hw with h | h <;> simp [h]

/-- an archive whose metadata and chunks but the last are in place, under a header that an append may have given to it -/
theorem unpackFrom_kept {E : Env μ} (L : E.Laws) {F : File μ} (hc : F.Conforming E) {init : List (Bytes × Bytes)} {p : Bytes × Bytes}
    (hch : F.chunks = init ++ [p]) {h : BloscpackHeader} (hh : Heads E F h) {T d : Bytes} (hd : d = h.bytes ++ T)
    (hk : KeptBut E F init d) :
    ∃ more, ((∃ e, unpackFrom E d = (.error e, (init.map (·.2)).flatten ++ more)) ∨
      unpackFrom E d = (.ok F.metadata, (init.map (·.2)).flatten ++ more)) := by
  obtain ⟨head, offs, rest, h1, h2, h3⟩ := hk
  obtain ⟨g1, g2, g3, g4, g5, g6⟩ := hh
  have h4 : head = h.bytes := by
    rw [h3] at hd
    exact (List.append_inj hd (by rw [h1, BloscpackHeader.bytes_length])).1
  subst h4
  have himpl : ({ F with header := h, offsets := offs, chunks := init, junk := rest } : File μ).impl E = F.impl E := by
    simp [File.impl, BloscpackHeader.checksumImpl, g6]
  have hn : F.header.nchunks = init.length + 1 := by rw [hc.nchunks, hch]; simp
  have hG : ({ F with header := h, offsets := offs, chunks := init, junk := rest } : File μ).Pre E := {
    ok := g1
    version := g2
    meta_flag := by rw [← hc.meta_flag]; exact g3
    sec_ok := hc.sec_ok
    offsets_len := by show offs.length = offsetsLen h; rw [h2, g4, hc.offsets_len]
    offsets_small := by show offsetsLen h < _; rw [g4]; exact hc.offsets_small
    nchunks_le := by show (init.length : Int) ≤ h.nchunks; omega
    chunks_ok := fun q hq => hc.chunks_ok q (by rw [hch]; simp [show q ∈ init from hq]) }
  obtain ⟨lo, h5⟩ := unpackFrom_pre L hG
  have hb : ({ F with header := h, offsets := offs, chunks := init, junk := rest } : File μ).bytes E = d := by
    rw [h3]
    simp only [File.bytes, File.front, File.body, himpl, File.secBytes, List.append_assoc]
  rw [hb] at h5
  obtain ⟨x, r, s', lo', h6⟩ := unpackLoop_extends (E := E) (compressedFPSource h (F.impl E)) (h.nchunks.toNat - init.length) init.length
    (Z (File.front E { F with header := h, offsets := offs, chunks := init, junk := rest } ++
      File.body E { F with header := h, offsets := offs, chunks := init, junk := rest }) rest []) ((init.map (·.2)).flatten) lo
  refine ⟨x, ?_⟩
  rw [himpl] at h5
  have h7 : unpackFrom E d = (r.map (fun _ => F.metadata), (init.map (·.2)).flatten ++ x) := by
    rw [h5]
    show (Except.map _ (unpackLoop (compressedFPSource h (F.impl E)) (plainFPSinkPut E) (h.nchunks.toNat - init.length) init.length _).1,
      (unpackLoop (compressedFPSource h (F.impl E)) (plainFPSinkPut E) (h.nchunks.toNat - init.length) init.length _).2.2.data) = _
    simp only [File.data]
    rw [h6]
    simp
    rfl
  rw [h7]
  cases r with
  | error e => exact .inl ⟨e, rfl⟩
  | ok u => exact .inr rfl

/-- an append to an archive that was changed meanwhile, but for its metadata and its chunks but the last -/
theorem unpackFrom_overwritten {E : Env μ} (L : E.Laws) {F : File μ} (hc : F.Conforming E) (ho : F.header.offsets = true)
    {init : List (Bytes × Bytes)} {p : Bytes × Bytes} (hch : F.chunks = init ++ [p])
    {new : Bytes} {a : BloscArgs} {chs : List (Bytes × Bytes)} {q : Bytes × Bytes} {k : Int} (hg : Grown E F p new a chs q k)
    {tail d : Bytes} (hk : KeptBut E F init d) :
    unpackFrom E (Spec.replay d (grownLog E F init chs q tail)) = (.ok F.metadata, F.data ++ new) := by
  obtain ⟨head, offs, rest, h1, h2, rfl⟩ := hk
  obtain ⟨os, hparts, hoffs⟩ := grownLog_parts hc ho hch hg tail
  have hpl : (headPart E F init).length =
      (head ++ (F.secBytes E ++ (offs ++ Spec.records (F.impl E).function (init.map (·.1))))).length := by
    simp [headPart, File.front, h1, h2, BloscpackHeader.bytes_length]
  have e1 : head ++ (F.secBytes E ++ (offs ++ (Spec.records (F.impl E).function (init.map (·.1)) ++ rest))) =
      (head ++ (F.secBytes E ++ (offs ++ Spec.records (F.impl E).function (init.map (·.1))))) ++ rest := by simp
  rw [hparts, replay_append, e1, hpl, replay_seqLog_over, chunksWrites_flatten, replay_cons]
  have hb : ∀ O : Bytes, ({ grownFile E F init (chs ++ [q]) q.2.length rest with offsets := O } : File μ).bytes E =
      (grownFile E F init (chs ++ [q]) q.2.length tail).header.bytes ++ (F.secBytes E ++ (O ++
        (Spec.records (F.impl E).function (init.map (·.1)) ++ (Spec.records (F.impl E).function ((chs ++ [q]).map (·.1)) ++
          rest.drop (Spec.records (F.impl E).function ((chs ++ [q]).map (·.1))).length)))) := by
    intro O
    rw [grown_bytes]
    simp [grownFile]
  have e2 : overlay ((head ++ (F.secBytes E ++ (offs ++ Spec.records (F.impl E).function (init.map (·.1))))) ++
      (Spec.records (F.impl E).function ((chs ++ [q]).map (·.1)) ++
          rest.drop (Spec.records (F.impl E).function ((chs ++ [q]).map (·.1))).length)) 0
      (grownFile E F init (chs ++ [q]) q.2.length tail).header.bytes =
      ({ grownFile E F init (chs ++ [q]) q.2.length rest with offsets := offs } : File μ).bytes E := by
    rw [hb]
    have := overlay_mid [] head (F.secBytes E ++ (offs ++ (Spec.records (F.impl E).function (init.map (·.1)) ++
      (Spec.records (F.impl E).function ((chs ++ [q]).map (·.1)) ++
          rest.drop (Spec.records (F.impl E).function ((chs ++ [q]).map (·.1))).length))))
      (grownFile E F init (chs ++ [q]) q.2.length tail).header.bytes (by rw [BloscpackHeader.bytes_length, h1]; exact Nat.le_refl _)
    rw [show head.drop (grownFile E F init (chs ++ [q]) q.2.length tail).header.bytes.length = [] from
      List.drop_of_length_le (by rw [BloscpackHeader.bytes_length, h1]; exact Nat.le_refl _)] at this
    simp only [List.nil_append, List.append_nil, List.length_nil] at this
    rw [← this]
    simp
  rw [e2]
  have hfin : ∀ O : Bytes, O.length = F.offsets.length →
      unpackFrom E (({ grownFile E F init (chs ++ [q]) q.2.length rest with offsets := O } : File μ).bytes E) =
        (.ok F.metadata, F.data ++ new) := fun O hO => unpackFrom_grown L hc ho hch hg rest O hO
  rcases hoffs with rfl | ⟨O, rfl, hO⟩
  · exact hfin offs h2
  · rw [replay_cons, replay_nil, hb, ← List.append_assoc]
    have h32 : 32 + (F.secBytes E).length =
        ((grownFile E F init (chs ++ [q]) q.2.length tail).header.bytes ++ F.secBytes E).length := by
      rw [List.length_append, BloscpackHeader.bytes_length]
    rw [h32, overlay_mid _ _ _ _ (by omega), List.append_assoc, ← hb]
    exact hfin _ (by simp; omega)

/-! ### C87 -/

/-- C87: an append does the same writes, and has the same result, whatever other processes do to the archive after it has read what it needs
from it and before it writes. -/
theorem C87_same_writes (E : Env μ) (new : Bytes) (args : AppendArgs) (d d' : Bytes) (r : Except Err Int) (fp : FP)
    (hrun : appendFp E { data := new } new.length args { data := d } = (r, fp)) :
    (appendMeanwhile E new args d d').1 = r ∧ (appendMeanwhile E new args d d').2.data = Spec.replay d' fp.log ∧
      appendMeanwhile E new args d d = (r, fp) := by
  obtain ⟨h1, h2, h3⟩ := appendMeanwhile_run E new args d d' r fp hrun
  refine ⟨h1, h3, ?_⟩
  rw [← hrun]
  unfold appendFp appendMeanwhile
  rw [appendFrom_parts]
  have hro := ReadOnly.appendPlan E args { data := d }
  show _ = Proc.bind (appendPlan E args) _ _
  unfold Proc.bind
  generalize appendPlan E args { data := d } = q at hro
  obtain ⟨x, f⟩ := q
  obtain ⟨h1, h2⟩ : f.data = d ∧ f.log = [] := hro
  have hf : ({ f with data := d } : FP) = f := by rw [← h1]
  cases x <;> simp only [hf]

/-- C87: two appends one after the other: both of the new data are there. -/
theorem C87_one_after_the_other_partial (E : Env μ) (L : E.Laws) (F : File μ) (hc : F.Conforming E) (hnn : F.NoNull)
    (newA newB : Bytes) (argsA argsB : AppendArgs) (kA kB : Int) (fpA fpB : FP)
    (hB : appendFp E { data := newB } newB.length argsB { data := F.bytes E } = (.ok kB, fpB))
    (hA : appendFp E { data := newA } newA.length argsA { data := fpB.data } = (.ok kA, fpA)) :
    unpackFrom E fpA.data = (.ok F.metadata, F.data ++ newB ++ newA) := by
  obtain ⟨-, F1, h1, h2, h3, h4, h5, -⟩ := C13_append E L F hc hnn newB argsB kB fpB hB
  rw [h1] at hA
  obtain ⟨-, F2, g1, g2, g3, g4, g5, -⟩ := C13_append E L F1 h2 h3 newA argsA kA fpA hA
  rw [g1, unpackFrom_file L g2.toValid, g4, g5, h4, h5]

/-- C87 is violated by all appends: if a process appends to an archive after another one has read what it needs from it and before this one
writes, then both succeed, and the data of the first one are gone: the archive unpacks without an exception to the old data and the
data of the second one. -/
theorem C87_violated (E : Env μ) (L : E.Laws) (F : File μ) (hc : F.Conforming E) (hnn : F.NoNull)
    (newA newB : Bytes) (argsA argsB : AppendArgs) (kA : Int) (r : Except Err Int) (fpA fpB : FP)
    (hA : appendFp E { data := newA } newA.length argsA { data := F.bytes E } = (.ok kA, fpA))
    (hB : appendFp E { data := newB } newB.length argsB { data := F.bytes E } = (r, fpB)) :
    (appendMeanwhile E newA argsA (F.bytes E) fpB.data).1 = .ok kA ∧
      unpackFrom E (appendMeanwhile E newA argsA (F.bytes E) fpB.data).2.data = (.ok F.metadata, F.data ++ newA) := by
  obtain ⟨h1, -, h3⟩ := appendMeanwhile_run E newA argsA (F.bytes E) fpB.data (.ok kA) fpA hA
  refine ⟨h1, ?_⟩
  rw [h3]
  cases ho : F.header.offsets with
  | false =>
    have h2 := append_no_offsets L hc.toPre ho { data := newA } newA.length argsA []
    rw [hA] at h2
    cases (Prod.mk.inj h2).1
  | true =>
    obtain ⟨init, p, hch, hlast, ⟨e, he, -⟩ | ⟨chs, q, k', hg, ⟨-, -, -, hl⟩ | ⟨-, ⟨e, he⟩, -⟩⟩⟩ := append_cases L hc ho hnn hA
    · cases he
    rotate_left
    · cases he
    rw [hl, List.nil_append]
    refine unpackFrom_overwritten L hc ho hch hg ?_
    obtain ⟨init', p', hch', hw⟩ := append_writes L hc hnn hB
    obtain ⟨rfl, -⟩ : init' = init ∧ p' = p := by
      rw [hch] at hch'
      have := List.append_inj' hch' rfl
      exact ⟨this.1.symm, by simpa using this.2.symm⟩
    have := (C27_writes E (F.bytes E) newB argsB r fpB hB).1
    rw [this]
    exact (KeptBut.start hch).replay fun w hm => (hw w hm).1

/-- C87: however the writes of two appends to one archive are interleaved, and whatever becomes of the appends: unpacking the archive gives
the metadata, or fails, and either way the data of all chunks but the last of the archive as it was come out unharmed. -/
theorem C87_last_chunk_only_partial (E : Env μ) (L : E.Laws) (F : File μ) (hc : F.Conforming E) (hnn : F.NoNull)
    (newA newB : Bytes) (argsA argsB : AppendArgs) (rA rB : Except Err Int) (fpA fpB : FP)
    (hA : appendFp E { data := newA } newA.length argsA { data := F.bytes E } = (rA, fpA))
    (hB : appendFp E { data := newB } newB.length argsB { data := F.bytes E } = (rB, fpB))
    (log : List (Nat × Bytes)) (hi : Spec.Interleaved fpA.log fpB.log log) :
    ∃ more,
      ((∃ e, unpackFrom E (Spec.replay (F.bytes E) log) =
        (.error e, F.data.take ((F.header.nchunks - 1) * F.header.chunk_size).toNat ++ more)) ∨
      unpackFrom E (Spec.replay (F.bytes E) log) =
        (.ok F.metadata, F.data.take ((F.header.nchunks - 1) * F.header.chunk_size).toNat ++ more)) := by
  obtain ⟨init, p, hch, hwA⟩ := append_writes L hc hnn hA
  obtain ⟨init', p', hch', hwB⟩ := append_writes L hc hnn hB
  obtain ⟨rfl, rfl⟩ : init' = init ∧ p' = p := by
    rw [hch] at hch'
    have := List.append_inj' hch' rfl
    exact ⟨this.1.symm, by simpa using this.2.symm⟩
  rw [hc.take_init hch]
  have hw : ∀ w ∈ log, Harmless E F init' w ∧ (32 ≤ w.1 ∨ ∃ h, Heads E F h ∧ w = (0, h.bytes)) := by
    intro w hm
    rcases Interleaved.mem hi w hm with hm | hm
    · refine ⟨(hwA w hm).1, ?_⟩
      rcases (hwA w hm).2 with h | ⟨chs, q, k, tail, hg, rfl⟩
      · exact .inl h
      · exact .inr ⟨_, Heads.grown L hc hch hg tail, rfl⟩
    · refine ⟨(hwB w hm).1, ?_⟩
      rcases (hwB w hm).2 with h | ⟨chs, q, k, tail, hg, rfl⟩
      · exact .inl h
      · exact .inr ⟨_, Heads.grown L hc hch hg tail, rfl⟩
  have hb : F.bytes E = F.header.bytes ++ ((F.secBytes E ++ F.offsets) ++ (F.body E ++ F.junk)) := by simp [File.bytes, File.front]
  obtain ⟨h, T, hh, hd⟩ := replay_head (Heads.self hc) (T := (F.secBytes E ++ F.offsets) ++ (F.body E ++ F.junk)) (log := log)
    (fun w hm => (hw w hm).2)
  rw [← hb] at hd
  exact unpackFrom_kept L hc hch hh hd ((KeptBut.start hch).replay fun w hm => (hw w hm).1)

/-! ### C88 -/

theorem seqLog_inside (p : Nat) (bss : List Bytes) : ∀ w ∈ seqLog p bss, p ≤ w.1 ∧ w.1 + w.2.length ≤ p + bss.flatten.length := by
  induction bss generalizing p with
  | nil => simp [seqLog]
  | cons b bs ih =>
    intro w hw
    simp only [seqLog, List.mem_cons] at hw
    rw [List.flatten_cons, List.length_append]
    rcases hw with rfl | hw
    · simp only; omega
    · have := ih _ w hw; omega

/-- C88: while a process appends to an archive another one rewrites its metadata, both having read what they need from it before either
writes. However their writes are interleaved, in the end the archive unpacks to all of the data, old and new, and to the new
metadata. -/
theorem C88_append_and_rewrite (E : Env μ) (L : E.Laws) (F : File μ) (hc : F.Conforming E) (hnn : F.NoNull)
    (new : Bytes) (args : AppendArgs) (k : Int) (fpA : FP)
    (hA : appendFp E { data := new } new.length args { data := F.bytes E } = (.ok k, fpA))
    (md : Option μ) (x : RewriteArgs) (fpR : FP) (hR : rewriteMetadata E md x { data := F.bytes E } = (.ok (), fpR))
    (log : List (Nat × Bytes)) (hi : Spec.Interleaved fpA.log fpR.log log) :
    unpackFrom E (Spec.replay (F.bytes E) log) = (.ok md, F.data ++ new) := by
  obtain ⟨init, p, hch, hw⟩ := append_writes L hc hnn hA
  obtain ⟨-, G, g1, g2, -, g4, -, -, -, -, -, -, g5, -⟩ := C13_append E L F hc hnn new args k fpA hA
  have hAd := (C27_writes E (F.bytes E) new args _ fpA hA).1
  rcases rewrite_run L hc md x [] _ fpR hR with ⟨e, he, -⟩ | ⟨s, s', hs, hv, hmd, hlen, -, -, hRd, hRl, -⟩
  · cases he
  have hsb : F.secBytes E = s.bytes E := by simp [File.secBytes, hs]
  have hGs : G.secBytes E = s.bytes E := by simp [File.secBytes, g5, hs]
  have h32 := F.header.bytes_length
  have hb : F.bytes E = F.header.bytes ++ (s.bytes E ++ (F.offsets ++ (F.body E ++ F.junk))) := by simp [File.bytes, File.front, hsb]
  have hGb : G.bytes E = G.header.bytes ++ (s.bytes E ++ (G.offsets ++ (G.body E ++ G.junk))) := by simp [File.bytes, File.front, hGs]
  rw [List.nil_append] at hRl
  obtain ⟨A', S', R', l1, l2, l3, l4, l5⟩ := interleaved_apart hi (A := F.header.bytes) (S := s.bytes E)
    (R := F.offsets ++ (F.body E ++ F.junk))
    (fun w hm => by
      rcases (hw w hm).1 with ⟨h1, h2⟩ | ⟨h1, -⟩ | h1
      · left; omega
      · right; rw [h1, hsb, h32]; exact Nat.le_refl _
      · right
        refine Nat.le_trans ?_ h1
        simp [headPart, File.front, hsb])
    (fun w hm => by
      rw [hRl] at hm
      have := seqLog_inside _ _ w hm
      rw [secWrites_flatten hv, hlen] at this
      rw [h32]
      exact this)
  have e1 := l3 (s.bytes E) rfl
  rw [← hb, ← hAd, g1, hGb] at e1
  obtain ⟨rfl, e0⟩ := List.append_inj e1 (by rw [l1, BloscpackHeader.bytes_length, BloscpackHeader.bytes_length])
  obtain rfl := List.append_cancel_left e0
  have e2 := l4 F.header.bytes [] rfl
  rw [hRl, ← h32, replay_seqLog_over, secWrites_flatten hv, List.drop_of_length_le (by simp [hlen])] at e2
  have e3 : s'.bytes E = S' := by simpa using (List.append_cancel_left e2)
  subst e3
  have e4 : Spec.replay (F.bytes E) log = ({ G with sec := some s' } : File μ).bytes E := by
    rw [hb, l5]
    simp [File.bytes, File.front, File.secBytes, File.body, File.impl]
  rw [e4, unpackFrom_file L (g2.replaceSec (g5.trans hs) hv hlen).toValid]
  have hd : ({ G with sec := some s' } : File μ).data = F.data ++ new := g4
  rw [hd]
  simp [File.metadata, hmd]

/-! ### examples -/

/-- Two appends to one archive. The first line: both succeed, but the first to write is lost. The second: a metadata rewrite between two writes
of an append. The third: the first two writes of one append, then all of the other, then the remaining writes of the one: what comes
out, without an exception, is neither. -/
example : (packBytesToBytes Toy.env [1, 2, 3] (.int 2) (some 5) {} { max_app_chunks := .int 4 }
      { max_meta_size := .int 12 }).toOption.map (fun out =>
    let a := appendFp Toy.env { data := [4, 5, 6] } 3 {} { data := out }
    let b := appendFp Toy.env { data := [7, 8] } 2 {} { data := out }
    let m := appendMeanwhile Toy.env [4, 5, 6] {} out b.2.data
    let w := rewriteMetadata Toy.env (some 6) {} { data := out }
    let show' := fun d => ((unpackFrom Toy.env d).1.toOption, (unpackFrom Toy.env d).2)
    ([a.1.toOption, b.1.toOption, m.1.toOption],
      [show' m.2.data, show' (Spec.replay out (a.2.log.take 5 ++ w.2.log ++ a.2.log.drop 5)),
        show' (Spec.replay out (a.2.log.take 2 ++ b.2.log ++ a.2.log.drop 2))])) =
    some ([some 1, some 1, some 1],
      [(some (some 5), [1, 2, 3, 4, 5, 6]), (some (some 6), [1, 2, 3, 4, 5, 6]), (some (some 5), [1, 2, 3, 7, 5, 6])]) := by
  decide +kernel

end Bloscpack
