import Verif.Lemmas.Disk
import Verif.Props.AppendTorn
import Verif.Props.RewriteCrash
import Verif.Props.RoundTrip
/-
C102: disks that fail.
-/
namespace Bloscpack
variable {μ : Type}

/-! ### packing -/

theorem packDisk_cases (E : Env μ) (data : Bytes) (cs : ChunkSizeArg) (md : Option μ) (a : BloscArgs) (b : BloscpackArgs) (m : MetadataArgs)
    (cut : Nat) (faults : List (Option (Nat × Nat))) {n c l : Int} (hn : calculateNchunks data.length cs = .ok (n, c, l)) :
    ∃ r' disk r fp, packDisk E data cs md a b m cut faults = (r', some disk) ∧ packBytes E data cs md a b m = (r, some fp) ∧
      ((disk.lost = none ∧ r' = r ∧ disk.fp = fp) ∨
      (r' = .error .osError ∧ Spec.Crashed [] fp.log disk.contents ∧
        (disk.lost ≠ none → ∃ f, some f ∈ faults) ∧
        (disk.lost = none → cut < ((plainFPSource { data := data }) c l n).items.length))) := by
  unfold packDisk packBytes
  rw [hn]
  refine ⟨_, _, _, _, rfl, rfl, ?_⟩
  dsimp only
  have hw := Disk.within_cases (Sim.sinkOn (Sim.pack E (PlainSource.failsAfter (plainFPSource { data := data }) cut) n c l md a b m))
    (Disk.opened [] faults) rfl
  have hc := CutShort.pack E (plainFPSource { data := data }) cut n c l md a b m { fp := { data := [] } }
  have hlog : ∀ S, FP.Later { data := [] } (pack E S (compressedFPSink E) n c l md a b m ({ fp := { data := [] } } : FPSink)).2.fp :=
    fun S => (Sim.pack E S n c l md a b m).1 ({ fp := { data := [] } } : FPSink)
  rcases hw with ⟨h1, h2, h3⟩ | ⟨h1, h2, h3⟩
  · rcases hc with hc | ⟨hc1, hc2⟩
    · left
      refine ⟨h1, h2.trans ?_, h3.trans ?_⟩
      · show Prod.fst (pack E (PlainSource.failsAfter _ cut) _ n c l md a b m ({ fp := { data := [] } } : FPSink)) = _
        rw [hc]
      · show (Prod.snd (pack E (PlainSource.failsAfter _ cut) _ n c l md a b m ({ fp := { data := [] } } : FPSink))).fp = _
        rw [hc]
    · by_cases hlt : cut < ((plainFPSource { data := data }) c l n).items.length
      · right
        refine ⟨h2.trans hc1, ?_, fun g => absurd h1 g, fun _ => hlt⟩
        obtain ⟨w, e1, e2⟩ := hc2
        obtain ⟨w', e3, e4⟩ := hlog (PlainSource.failsAfter (plainFPSource { data := data }) cut)
        rw [Disk.contents, h1, Option.getD_none, e1]
        rw [show (Disk.within _ (Disk.opened [] faults)).2.fp =
          (pack E (PlainSource.failsAfter (plainFPSource { data := data }) cut) (compressedFPSink E) n c l md a b m ({ fp := { data := [] } } : FPSink)).2.fp from h3]
        rw [e4, show (pack E (PlainSource.failsAfter (plainFPSource { data := data }) cut) (compressedFPSink E) n c l md a b m
          ({ fp := { data := [] } } : FPSink)).2.fp.log = w' from e3]
        exact crashed_replay _ _ _
      · left
        have e : PlainSource.failsAfter (plainFPSource { data := data }) cut c l n = plainFPSource { data := data } c l n := by
          simp [PlainSource.failsAfter, hlt]
        have e' : pack E (PlainSource.failsAfter (plainFPSource { data := data }) cut) (compressedFPSink (σ := FP) E) n c l md a b m =
            pack E (plainFPSource { data := data }) (compressedFPSink E) n c l md a b m := by
          unfold pack
          rw [e]
        refine ⟨h1, h2.trans ?_, h3.trans ?_⟩
        · show Prod.fst (pack E (PlainSource.failsAfter _ cut) _ n c l md a b m ({ fp := { data := [] } } : FPSink)) = _
          rw [e']
        · show (Prod.snd (pack E (PlainSource.failsAfter _ cut) _ n c l md a b m ({ fp := { data := [] } } : FPSink))).fp = _
          rw [e']
  · right
    refine ⟨h2, ?_, fun _ => ?_, fun g => absurd g h1⟩
    · have hl : (pack E (PlainSource.failsAfter (plainFPSource { data := data }) cut) (compressedFPSink E) n c l md a b m ({ fp := { data := [] } } : FPSink)).2.fp.Later
          (pack E (plainFPSource { data := data }) (compressedFPSink E) n c l md a b m ({ fp := { data := [] } } : FPSink)).2.fp := by
        rcases hc with hc | ⟨-, hc⟩
        · rw [hc]; exact .refl _
        · exact hc
      exact Disk.Failed.crashed (diskWorld.after_later h3 hl)
    · obtain ⟨k, x, -, -, hm, -⟩ := h3
      exact ⟨_, hm⟩

/-- C102 for packing: when an operation on the input or the output fails, packing raises `OSError`, and the output is as if packing had been
interrupted. Otherwise nothing is different from a disk that works. -/
theorem C102_pack (E : Env μ) (data : Bytes) (cs : ChunkSizeArg) (md : Option μ) (a : BloscArgs) (b : BloscpackArgs) (m : MetadataArgs)
    (cut : Nat) (faults : List (Option (Nat × Nat))) (r' : Except Err MetadataArgs) (disk : Disk)
    (h : packDisk E data cs md a b m cut faults = (r', some disk)) :
    ∃ r fp, packBytes E data cs md a b m = (r, some fp) ∧ (disk.lost ≠ none → r' = .error .osError) ∧
      ((r' = r ∧ disk.contents = fp.data) ∨ (r' = .error .osError ∧ Spec.Crashed [] fp.log disk.contents)) := by
  cases hn : calculateNchunks data.length cs with
  | error e => simp [packDisk, hn] at h
  | ok v =>
    obtain ⟨n, c, l⟩ := v
    obtain ⟨r1, d1, r, fp, h1, h2, h3⟩ := packDisk_cases E data cs md a b m cut faults hn
    rw [h] at h1
    obtain ⟨rfl, h4⟩ := Prod.mk.inj h1
    obtain rfl := Option.some.inj h4
    refine ⟨r, fp, h2, ?_⟩
    rcases h3 with ⟨g1, g2, g3⟩ | ⟨g1, g2, -⟩
    · exact ⟨fun g => absurd g1 g, .inl ⟨g2, by rw [Disk.contents, g1, ← g3]; rfl⟩⟩
    · exact ⟨fun _ => g1, .inr ⟨g1, g2⟩⟩

/-- C102 for packing: a disk that does not fail makes no difference. -/
theorem C102_pack_works (E : Env μ) (data : Bytes) (cs : ChunkSizeArg) (md : Option μ) (a : BloscArgs) (b : BloscpackArgs) (m : MetadataArgs)
    (cut : Nat) (faults : List (Option (Nat × Nat))) (n c l : Int) (hn : calculateNchunks data.length cs = .ok (n, c, l))
    (hcut : 1 ≤ cut ∧ n ≤ cut) (hf : ∀ f ∈ faults, f = none) :
    ∃ r disk, packDisk E data cs md a b m cut faults = (r, some disk) ∧ packBytes E data cs md a b m = (r, some disk.fp) ∧
      disk.contents = disk.fp.data := by
  obtain ⟨r', disk, r, fp, h1, h2, h3⟩ := packDisk_cases E data cs md a b m cut faults hn
  rcases h3 with ⟨g1, rfl, rfl⟩ | ⟨g1, g2, g3, g4⟩
  · exact ⟨r', disk, h1, h2, by rw [Disk.contents, g1]; rfl⟩
  · exfalso
    by_cases hl : disk.lost = none
    · have := g4 hl
      have hlen : ∀ (ns : List Int) (f : FP), (readMany ns f).1.length = ns.length := by
        intro ns
        induction ns with
        | nil => intro f; rfl
        | cons x xs ih => intro f; simp [readMany, ih]
      simp only [plainFPSource, hlen, List.length_append, List.length_replicate, List.length_singleton] at this
      omega
    · obtain ⟨f, hm⟩ := g3 hl
      exact absurd (hf _ hm) nofun

/-- C102 for packing: if packing says it has succeeded, the output unpacks to the input. If not, it unpacks to the input or not at all. -/
theorem C102_pack_safe (E : Env μ) (L : E.Laws) (data : Bytes) (cs : ChunkSizeArg) (md : Option μ) (a : BloscArgs) (b : BloscpackArgs)
    (m : MetadataArgs) (cut : Nat) (faults : List (Option (Nat × Nat))) (r' : Except Err MetadataArgs) (disk : Disk)
    (h : packDisk E data cs md a b m cut faults = (r', some disk)) :
    (r'.toBool = true → unpackBytesFromBytes E disk.contents = .ok (data, md)) ∧
    ((∃ e, unpackBytesFromBytes E disk.contents = .error e) ∨ unpackBytesFromBytes E disk.contents = .ok (data, md)) := by
  obtain ⟨r, fp, h1, -, h3⟩ := C102_pack E data cs md a b m cut faults r' disk h
  have hd : fp.data = Spec.replay [] fp.log := (pack_crash_cases L h1).1
  rcases h3 with ⟨rfl, g2⟩ | ⟨rfl, g2⟩
  · constructor
    · intro hr
      cases hm : r' with
      | error e => rw [hm] at hr; cases hr
      | ok m' =>
        rw [hm] at h1
        obtain ⟨fp', -, -, -, -, k1, -, -, -, -, -, -, -, -, -, k11⟩ := packBytes_ok L h1
        cases k1
        have : packBytesToBytes E data cs md a b m = .ok fp.data := by
          rw [packBytesToBytes_eq, h1]; simp only [if_neg k11]
        rw [g2]
        exact C01_roundtrip E L _ _ _ _ _ _ _ this
    · rw [g2, hd]
      exact C26_interrupted_pack E L data cs md a b m _ _ h1 _ (by simpa using crashed_replay [] fp.log [])
  · exact ⟨nofun, C26_interrupted_pack E L data cs md a b m _ _ h1 _ g2⟩

/-! ### appending -/

/-- C102 for appending: when an operation on the file appended to fails, appending raises `OSError`, and the file is as if appending had been
interrupted, between two writes if no write is torn. Otherwise nothing is different from a disk that works. -/
theorem C102_append (E : Env μ) (orig new : Bytes) (args : AppendArgs) (faults : List (Option (Nat × Nat)))
    (r' : Except Err Int) (disk : Disk) (h : appendDisk E orig new args faults = (r', disk)) (r : Except Err Int) (fp : FP)
    (hr : appendFp E { data := new } new.length args { data := orig } = (r, fp)) :
    (disk.lost = none ∧ r' = r ∧ disk.contents = fp.data) ∨
    (disk.lost ≠ none ∧ (∃ f, some f ∈ faults) ∧ r' = .error .osError ∧ Spec.Crashed orig fp.log disk.contents ∧
      ((∀ k x, some (k, x) ∈ faults → x = 0) → Spec.StoppedBetween orig fp.log disk.contents)) := by
  have hw := Disk.within_cases (Sim.appendFrom E (fun n => (FP.read { data := new } n).1)
    (fun b cs lc k => (plainFPSource (FP.read { data := new } b).2 cs lc k).items) new.length args) (Disk.opened orig faults) rfl
  change _ ∨ _ ∧ _ ∧ Disk.Failed _ _ (appendFp E { data := new } new.length args ({ data := orig } : FP)).2 at hw
  change (_ ∧ _ = (appendFp E { data := new } new.length args ({ data := orig } : FP)).1 ∧
    _ = (appendFp E { data := new } new.length args ({ data := orig } : FP)).2) ∨ _ at hw
  rw [hr] at hw
  change (appendDisk E orig new args faults).2.lost = none ∧ (appendDisk E orig new args faults).1 = r ∧
    (appendDisk E orig new args faults).2.fp = fp ∨ (appendDisk E orig new args faults).2.lost ≠ none ∧
    (appendDisk E orig new args faults).1 = .error .osError ∧ Disk.Failed (Disk.opened orig faults) (appendDisk E orig new args faults).2 fp at hw
  rw [h] at hw
  rcases hw with ⟨h1, h2, h3⟩ | ⟨h1, h2, h3⟩
  · exact .inl ⟨h1, h2, by rw [Disk.contents, h1, ← h3]; rfl⟩
  · refine .inr ⟨h1, ?_, h2, h3.crashed, h3.stopped⟩
    obtain ⟨k, x, -, -, hm, -⟩ := h3
    exact ⟨_, hm⟩

/-- C102 for appending: whatever fails, the metadata section and every chunk but the last stay where they were. If no write is torn, the file
still unpacks to the old data and some of the new ones, or is refused. -/
theorem C102_append_safe (E : Env μ) (L : E.Laws) (F : File μ) (hc : F.Conforming E) (hnn : F.NoNull) (new : Bytes) (args : AppendArgs)
    (faults : List (Option (Nat × Nat))) (r' : Except Err Int) (disk : Disk) (h : appendDisk E (F.bytes E) new args faults = (r', disk)) :
    (∃ head offs rest : Bytes, head.length = 32 ∧ offs.length = F.offsets.length ∧
      disk.contents = head ++ (F.secBytes E ++ (offs ++ (Spec.records (F.impl E).function (F.chunks.dropLast.map (·.1)) ++ rest)))) ∧
    ((∀ k x, some (k, x) ∈ faults → x = 0) → unpackBytesFromBytes E disk.contents = .error .checksumMismatch ∨
      ∃ t, unpackBytesFromBytes E disk.contents = .ok (F.data ++ new.take t, F.metadata)) := by
  generalize hr : appendFp E { data := new } new.length args { data := F.bytes E } = q
  obtain ⟨r, fp⟩ := q
  obtain ⟨hl, -, hlast⟩ := C27_writes E _ _ _ _ _ hr
  rcases C102_append E _ _ _ _ _ _ h _ _ hr with ⟨-, rfl, g2⟩ | ⟨-, -, -, g2, g3⟩
  · rw [g2]
    refine ⟨C78_untouched_bytes E L F hc hnn new args _ _ hr _ ?_, fun _ => C27_interrupted_append E L F hc hnn new args _ _ hr _ hlast⟩
    rw [hl]
    simpa using crashed_replay (F.bytes E) fp.log []
  · exact ⟨C78_untouched_bytes E L F hc hnn new args _ _ hr _ g2, fun hx => C27_interrupted_append E L F hc hnn new args _ _ hr _ (g3 hx)⟩

/-- C102 for appending from a file that cannot be read to its end: appending raises `OSError`, and the file appended to is as if appending had been
interrupted; it may fail, too. -/
theorem C102_append_input (E : Env μ) (orig new : Bytes) (args : AppendArgs) (cut : Nat) (faults : List (Option (Nat × Nat)))
    (r' : Except Err Int) (disk : Disk) (h : appendBothDisks E orig new args cut faults = (r', disk)) (r : Except Err Int) (fp : FP)
    (hr : appendFp E { data := new } new.length args { data := orig } = (r, fp)) :
    (disk.lost ≠ none → r' = .error .osError ∧ ∃ f, some f ∈ faults) ∧
    ((r' = r ∧ disk.contents = fp.data) ∨
    (r' = .error .osError ∧ Spec.Crashed orig fp.log disk.contents ∧
      ((∀ k x, some (k, x) ∈ faults → x = 0) → Spec.StoppedBetween orig fp.log disk.contents))) := by
  have hw := Disk.within_cases (Sim.appendFromFailing E (fun k => if cut = 0 then .error .osError else .ok (FP.read { data := new } k).1)
    (fun b => PlainSource.failsAfter (plainFPSource (FP.read { data := new } b).2) (cut - 1)) new.length args) (Disk.opened orig faults) rfl
  have hcut := CutShort.append E new new.length args cut { data := orig }
  have hl := (Sim.appendFromFailing E (fun k => if cut = 0 then .error .osError else .ok (FP.read { data := new } k).1)
    (fun b => PlainSource.failsAfter (plainFPSource (FP.read { data := new } b).2) (cut - 1)) new.length args).1 { data := orig }
  change (appendBothDisks E orig new args cut faults).2.lost = none ∧ (appendBothDisks E orig new args cut faults).1 = _ ∧
    (appendBothDisks E orig new args cut faults).2.fp = _ ∨ (appendBothDisks E orig new args cut faults).2.lost ≠ none ∧
    (appendBothDisks E orig new args cut faults).1 = .error .osError ∧ Disk.Failed (Disk.opened orig faults) (appendBothDisks E orig new args cut faults).2 _ at hw
  rw [h] at hw
  rw [hr] at hcut
  change (_ ∧ _ ∧ _ = (appendFromFailing E _ _ new.length args ({ data := orig } : FP)).2) ∨ _ ∧ _ ∧ Disk.Failed _ _
    (appendFromFailing E _ _ new.length args ({ data := orig } : FP)).2 at hw
  change (_ ∧ _ = (appendFromFailing E _ _ new.length args ({ data := orig } : FP)).1 ∧ _) ∨ _ at hw
  generalize appendFromFailing E _ _ new.length args ({ data := orig } : FP) = q at hw hcut hl
  obtain ⟨x, t⟩ := q
  simp only at hw
  have hlater : FP.Later t fp := by
    rcases hcut with hcut | ⟨-, hcut⟩
    · cases hcut; exact .refl _
    · exact hcut
  obtain ⟨w, l1, l2⟩ := hl
  have l1 : t.log = w := l1
  have l2 : t.data = Spec.replay orig w := l2
  rcases hw with ⟨h1, h2, h3⟩ | ⟨h1, h2, h3⟩
  · refine ⟨fun g => absurd h1 g, ?_⟩
    have hd : disk.contents = t.data := by rw [Disk.contents, h1, Option.getD_none, h3]
    rcases hcut with hcut | ⟨hx, -⟩
    · cases hcut
      exact .inl ⟨h2, hd⟩
    · obtain ⟨v, e1, -⟩ := hlater
      right
      rw [hd, l2, e1, l1]
      exact ⟨h2.trans hx, crashed_replay orig w v, fun _ => ⟨w, v, rfl, rfl⟩⟩
  · have h4 := diskWorld.after_later h3 hlater
    refine ⟨fun _ => ⟨h2, ?_⟩, .inr ⟨h2, Disk.Failed.crashed h4, Disk.Failed.stopped h4⟩⟩
    obtain ⟨k, x, -, -, hm, -⟩ := h3
    exact ⟨_, hm⟩

/-- C102 for appending from a file that cannot be read to its end, as `C102_append_safe` -/
theorem C102_append_input_safe (E : Env μ) (L : E.Laws) (F : File μ) (hc : F.Conforming E) (hnn : F.NoNull) (new : Bytes) (args : AppendArgs)
    (cut : Nat) (faults : List (Option (Nat × Nat))) (r' : Except Err Int) (disk : Disk)
    (h : appendBothDisks E (F.bytes E) new args cut faults = (r', disk)) :
    (∃ head offs rest : Bytes, head.length = 32 ∧ offs.length = F.offsets.length ∧
      disk.contents = head ++ (F.secBytes E ++ (offs ++ (Spec.records (F.impl E).function (F.chunks.dropLast.map (·.1)) ++ rest)))) ∧
    ((∀ k x, some (k, x) ∈ faults → x = 0) → unpackBytesFromBytes E disk.contents = .error .checksumMismatch ∨
      ∃ t, unpackBytesFromBytes E disk.contents = .ok (F.data ++ new.take t, F.metadata)) := by
  generalize hr : appendFp E { data := new } new.length args { data := F.bytes E } = q
  obtain ⟨r, fp⟩ := q
  obtain ⟨hl, -, hlast⟩ := C27_writes E _ _ _ _ _ hr
  rcases (C102_append_input E _ _ _ _ _ _ _ h _ _ hr).2 with ⟨rfl, g2⟩ | ⟨-, g2, g3⟩
  · rw [g2]
    refine ⟨C78_untouched_bytes E L F hc hnn new args _ _ hr _ ?_, fun _ => C27_interrupted_append E L F hc hnn new args _ _ hr _ hlast⟩
    rw [hl]
    simpa using crashed_replay (F.bytes E) fp.log []
  · exact ⟨C78_untouched_bytes E L F hc hnn new args _ _ hr _ g2, fun hx => C27_interrupted_append E L F hc hnn new args _ _ hr _ (g3 hx)⟩

/-! ### rewriting metadata -/

/-- C102 for rewriting metadata, as `C102_append` -/
theorem C102_rewrite (E : Env μ) (orig : Bytes) (md : Option μ) (x : RewriteArgs) (faults : List (Option (Nat × Nat)))
    (r' : Except Err Unit) (disk : Disk) (h : rewriteDisk E orig md x faults = (r', disk)) (r : Except Err Unit) (fp : FP)
    (hr : rewriteMetadata E md x { data := orig } = (r, fp)) :
    (disk.lost = none ∧ r' = r ∧ disk.contents = fp.data) ∨
    (disk.lost ≠ none ∧ (∃ f, some f ∈ faults) ∧ r' = .error .osError ∧ Spec.Crashed orig fp.log disk.contents ∧
      ((∀ k x, some (k, x) ∈ faults → x = 0) → Spec.StoppedBetween orig fp.log disk.contents)) := by
  have hw := Disk.within_cases (Sim.rewriteMetadata E md x) (Disk.opened orig faults) rfl
  change (_ ∧ _ = (rewriteMetadata E md x ({ data := orig } : FP)).1 ∧ _ = (rewriteMetadata E md x ({ data := orig } : FP)).2) ∨
    _ ∧ _ ∧ Disk.Failed _ _ (rewriteMetadata E md x ({ data := orig } : FP)).2 at hw
  rw [hr] at hw
  change (rewriteDisk E orig md x faults).2.lost = none ∧ (rewriteDisk E orig md x faults).1 = r ∧
    (rewriteDisk E orig md x faults).2.fp = fp ∨ (rewriteDisk E orig md x faults).2.lost ≠ none ∧
    (rewriteDisk E orig md x faults).1 = .error .osError ∧ Disk.Failed (Disk.opened orig faults) (rewriteDisk E orig md x faults).2 fp at hw
  rw [h] at hw
  rcases hw with ⟨h1, h2, h3⟩ | ⟨h1, h2, h3⟩
  · exact .inl ⟨h1, h2, by rw [Disk.contents, h1, ← h3]; rfl⟩
  · refine .inr ⟨h1, ?_, h2, h3.crashed, h3.stopped⟩
    obtain ⟨k, x, -, -, hm, -⟩ := h3
    exact ⟨_, hm⟩

/-- C102 for rewriting metadata: whatever fails, nothing outside the metadata section changes, and if no write is torn or the section takes up at
most half the file, the file unpacks to its data or is refused. -/
theorem C102_rewrite_safe (E : Env μ) (L : E.Laws) (F : File μ) (hc : F.Conforming E) (md : Option μ) (x : RewriteArgs)
    (faults : List (Option (Nat × Nat))) (r' : Except Err Unit) (disk : Disk) (h : rewriteDisk E (F.bytes E) md x faults = (r', disk)) :
    (disk.contents.length = (F.bytes E).length ∧ disk.contents.take 32 = (F.bytes E).take 32 ∧
      disk.contents.drop (32 + (F.secBytes E).length) = (F.bytes E).drop (32 + (F.secBytes E).length)) ∧
    ((∀ k x, some (k, x) ∈ faults → x = 0) ∨ 2 * (F.secBytes E).length ≤ (F.bytes E).length →
      (∃ e, unpackBytesFromBytes E disk.contents = .error e) ∨ ∃ m, unpackBytesFromBytes E disk.contents = .ok (F.data, m)) := by
  generalize hr : rewriteMetadata E md x { data := F.bytes E } = q
  obtain ⟨r, fp⟩ := q
  obtain ⟨hl, -, hlast⟩ := C58_writes E _ _ _ _ _ hr
  have hcr : Spec.Crashed (F.bytes E) fp.log fp.data := by
    rw [hl]
    simpa using crashed_replay (F.bytes E) fp.log []
  rcases C102_rewrite E _ _ _ _ _ _ h _ _ hr with ⟨-, rfl, g2⟩ | ⟨-, -, -, g2, g3⟩
  · rw [g2]
    exact ⟨C58_outside E L F hc md x _ _ hr _ hcr, fun _ => C58_between E L F hc md x _ _ hr _ hlast⟩
  · refine ⟨C58_outside E L F hc md x _ _ hr _ g2, ?_⟩
    rintro (hx | hx)
    · exact C58_between E L F hc md x _ _ hr _ (g3 hx)
    · exact C58_torn E L F hc md x _ _ hr _ g2 hx

/-! ### unpacking -/

/-- C102 for unpacking: when an operation on either file fails, unpacking raises `OSError`, and what is in the output is the beginning of what
would have been there. Otherwise nothing is different from disks that work. -/
theorem C102_unpack (E : Env μ) (input : Bytes) (faultsIn faultsOut : List (Option (Nat × Nat))) (r' : Except Err (Option μ)) (inp disk : Disk)
    (h : unpackDisk E input faultsIn faultsOut = (r', inp, disk)) (r : Except Err (Option μ)) (out : Bytes) (hr : unpackFrom E input = (r, out)) :
    (inp.lost = none ∧ disk.lost = none ∧ r' = r ∧ disk.contents = out) ∨
    ((inp.lost ≠ none ∨ disk.lost ≠ none) ∧ r' = .error .osError ∧ (∃ f, some f ∈ faultsIn ∨ some f ∈ faultsOut) ∧ ∃ k, disk.contents = out.take k) := by
  rw [Sim.copyOut_eq] at hr
  obtain ⟨hr1, hr2⟩ := Prod.mk.inj hr
  obtain ⟨bss, hb⟩ := Sim.copyOut_wrote E input
  have hout : out = bss.flatten := by rw [← hr2, hb]; simp [wrote]
  have hlog : (Sim.copyOut E (({ data := input } : FP), ({ data := [] } : FP))).2.2.log = seqLog 0 bss := by rw [hb]; simp [wrote, Z]
  have hs := (Sim.copyOut_sim E).2 (Disk.opened input faultsIn, Disk.opened [] faultsOut) ⟨rfl, rfl⟩
  change (_ ∧ _ = (Sim.copyOut E (({ data := input } : FP), ({ data := [] } : FP))).1 ∧
    _ = (Sim.copyOut E (({ data := input } : FP), ({ data := [] } : FP))).2 ∧ _) ∨
    _ ∧ _ ∧ pairWorld.after _ _ (Sim.copyOut E (({ data := input } : FP), ({ data := [] } : FP))).2 at hs
  generalize Sim.copyOut E (({ data := input } : FP), ({ data := [] } : FP)) = q at *
  obtain ⟨x, f1, f2⟩ := q
  simp only at hr1 hr2 hb hlog
  subst hr1
  have hcut : ∀ d, Spec.Crashed [] f2.log d → ∃ k, d = out.take k := by
    intro d hd
    rw [hlog] at hd
    obtain ⟨k, -, hk⟩ := crashed_seqLog hd
    exact ⟨k, by rw [hk, hout]⟩
  have hun : unpackDisk E input faultsIn faultsOut =
      (match Disk.close (Sim.copyOut E (Disk.opened input faultsIn, Disk.opened [] faultsOut)).2.2,
        Disk.close (Sim.copyOut E (Disk.opened input faultsIn, Disk.opened [] faultsOut)).2.1 with
      | (.ok (), out), (.ok (), inp) => ((Sim.copyOut E (Disk.opened input faultsIn, Disk.opened [] faultsOut)).1, inp, out)
      | (.error e, out), (_, inp) => (.error e, inp, out)
      | (.ok (), out), (.error e, inp) => (.error e, inp, out)) := rfl
  rw [hun] at h
  generalize Sim.copyOut E (Disk.opened input faultsIn, Disk.opened [] faultsOut) = q' at *
  obtain ⟨x', d1, d2⟩ := q'
  simp only at hs h
  have hres : inp = (Disk.close d1).2 ∧ disk = (Disk.close d2).2 ∧ ((inp.lost = none ∧ disk.lost = none ∧ d1.lost = none ∧ d2.lost = none ∧ r' = x') ∨
      (inp.lost ≠ none ∨ disk.lost ≠ none) ∧ r' = .error .osError) := by
    rcases d2.close_ok with ⟨s2, k1, k2, k3, -⟩ | ⟨s2, k1, k2⟩ <;> rcases d1.close_ok with ⟨s1, l1, l2, l3, -⟩ | ⟨s1, l1, l2⟩ <;>
      rw [k1, l1] at h ⊢ <;> obtain ⟨rfl, rfl, rfl⟩ := (by simpa using h : _ = r' ∧ _ = inp ∧ _ = disk)
    · exact ⟨rfl, rfl, .inl ⟨l3, k3, l2, k2, rfl⟩⟩
    · exact ⟨rfl, rfl, .inr ⟨.inl l2, rfl⟩⟩
    · exact ⟨rfl, rfl, .inr ⟨.inr k2, rfl⟩⟩
    · exact ⟨rfl, rfl, .inr ⟨.inr k2, rfl⟩⟩
  obtain ⟨hinp, hdisk, hres⟩ := hres
  rcases hs with ⟨⟨g1, g2⟩, rfl, g4, g5, g6⟩ | ⟨g1, rfl, g3⟩
  · have g7 : d2.fp = f2 := congrArg Prod.snd g4
    have hall : d2.fp.data = out := by rw [g7, hr2]
    rcases hres with ⟨e1, e2, -, -, e5⟩ | ⟨e1, e2⟩
    · refine .inl ⟨e1, e2, e5, ?_⟩
      rw [Disk.contents, e2, Option.getD_none, hdisk]
      rcases d2.close_cases with ⟨k1, -⟩ | ⟨-, fs, k2⟩ | ⟨-, k, t, fs, k1, k2⟩
      · exact absurd g2 k1
      · rw [k2]; exact hall
      · rw [k2]; exact hall
    · refine .inr ⟨e1, e2, ?_⟩
      rcases d2.close_cases with ⟨k1, -⟩ | ⟨-, fs, k2⟩ | ⟨-, k, t, fs, k1, k2⟩
      · exact absurd g2 k1
      · rcases d1.close_cases with ⟨l1, -⟩ | ⟨-, fs', l2⟩ | ⟨-, k, t, fs', l1, -⟩
        · exact absurd g1 l1
        · rw [hinp, l2, hdisk, k2] at e1
          rcases e1 with e1 | e1
          · exact absurd g1 e1
          · exact absurd g2 e1
        · refine ⟨⟨(k, t), .inl (g5.2 _ l1)⟩, out.length, ?_⟩
          rw [hdisk, k2, Disk.contents, g2, List.take_length]
          exact hall
      · refine ⟨⟨(k, t), .inr (g6.2 _ k1)⟩, hcut _ ?_⟩
        rw [hdisk, k2]
        show Spec.Crashed [] f2.log (arrived d2.before d2.fp.log k t)
        rw [g7, g6.1]
        have := crashed_arrived [] f2.log [] k t
        rwa [List.append_nil] at this
  · rcases hres with ⟨-, -, e3, e4, -⟩ | ⟨e1, e2⟩
    · exact absurd ⟨e3, e4⟩ g1
    · refine .inr ⟨e1, e2, ?_⟩
      rw [hdisk]
      rcases g3 with ⟨⟨f, hf⟩, k1, k2, ⟨w, k3, k4⟩, ⟨w', k5, -⟩⟩ | k1
      · refine ⟨⟨f, .inl hf⟩, hcut _ ?_⟩
        simp only at k2 k3 k4 k5
        have hw : d2.fp.log = w := k3
        rcases d2.close_cases with ⟨l1, -⟩ | ⟨-, fs, l2⟩ | ⟨-, k, t, fs, l1, l2⟩
        · exact absurd k1 l1
        · rw [l2, Disk.contents, k1, Option.getD_none, k4, k5, hw]
          exact crashed_replay [] _ _
        · rw [l2, k5]
          show Spec.Crashed [] _ (arrived d2.before d2.fp.log k t)
          rw [k2.1]
          exact crashed_arrived [] _ _ _ _
      · have hc : Disk.close d2 = (.error .osError, d2) := by
          rcases d2.close_cases with ⟨-, l2⟩ | ⟨l1, -⟩ | ⟨l1, -⟩
          · exact l2
          · obtain ⟨k, x, log, rest, -, -, k3⟩ := k1
            rw [l1] at k3; cases k3
          · obtain ⟨k, x, log, rest, -, -, k3⟩ := k1
            rw [l1] at k3; cases k3
        have hcr := k1.crashed
        obtain ⟨k, x, log, rest, hm, -⟩ := k1
        rw [hc]
        exact ⟨⟨(k, x), .inr hm⟩, hcut _ hcr⟩

/-- C102 for unpacking: if unpacking a packed file says it has succeeded, the output is the data that were packed. If not, it is the beginning of
them. -/
theorem C102_unpack_safe (E : Env μ) (L : E.Laws) (data : Bytes) (cs : ChunkSizeArg) (md : Option μ) (a : BloscArgs) (b : BloscpackArgs)
    (m : MetadataArgs) (packed : Bytes) (hp : packBytesToBytes E data cs md a b m = .ok packed)
    (faultsIn faultsOut : List (Option (Nat × Nat))) (r' : Except Err (Option μ)) (inp disk : Disk)
    (h : unpackDisk E packed faultsIn faultsOut = (r', inp, disk)) :
    (r' = .ok md ∧ disk.contents = data) ∨ (r' = .error .osError ∧ ∃ k, disk.contents = data.take k) := by
  rcases C102_unpack E packed faultsIn faultsOut r' inp disk h _ _ (packed_unpackFrom L hp) with ⟨-, -, h1, h2⟩ | ⟨-, h1, -, h2⟩
  · exact .inl ⟨h1, h2⟩
  · exact .inr ⟨h1, h2⟩

/-! ### examples -/

namespace DiskExamples
/-- the file the examples are about: three bytes in two chunks with room for more, and metadata -/
def packed : Bytes := ((packBytesToBytes Toy.env [1, 2, 3] (.int 2) (some 5) {} { max_app_chunks := .int 2 } { max_meta_size := .int 12 }).toOption).getD []

/-- what a run gives and what is on the disk afterwards -/
def see {α : Type} (r : Except Err α × Disk) : Bool × Bool × Option (Bytes × Option Nat) :=
  (r.1.toBool, r.2.lost.isSome, (unpackBytesFromBytes Toy.env r.2.contents).toOption)


/-- the result of packing -/
def seePack (cut : Nat) (faults : List (Option (Nat × Nat))) : Option (Bool × Bool × Option (Bytes × Option Nat)) :=
  match packDisk Toy.env [1, 2, 3] (.int 2) (some 5) {} { max_app_chunks := .int 2 } { max_meta_size := .int 12 } cut faults with
  | (r, some d) => some (see (r, d))
  | _ => none

-- packing works
example : seePack 2 (List.replicate 20 none) = some (true, false, some ([1, 2, 3], some 5)) := by decide +kernel
-- the fourth operation fails: two writes and a byte of the third one have arrived
example : seePack 2 [none, none, none, some (2, 1)] = some (false, true, none) := by decide +kernel
-- only one chunk can be read from the input
example : seePack 1 [] = some (false, false, none) := by decide +kernel
-- closing fails: all but the last byte of the last write have arrived
example : seePack 2 (List.replicate 19 none ++ [some (17, 31)]) = some (false, true, some ([1, 2, 3], some 5)) := by decide +kernel

-- appending: an operation fails when 0, 1, 2 and all six writes have arrived; it works
example : ([0, 1, 2, 6].map fun k => see (appendDisk Toy.env packed [4, 5, 6] {} (List.replicate (13 + k) none ++ [some (k, 0)]))) =
    [(false, true, some ([1, 2, 3], some 5)), (false, true, none), (false, true, some ([1, 2, 3, 4], some 5)),
      (false, true, some ([1, 2, 3, 4, 5, 6], some 5))] := by decide +kernel
example : see (appendDisk Toy.env packed [4, 5, 6] {} []) = (true, false, some ([1, 2, 3, 4, 5, 6], some 5)) := by decide +kernel

-- appending from a file of which nothing, a part, and everything can be read
example : ([0, 1, 2].map fun cut => see (appendBothDisks Toy.env packed [4, 5, 6] {} cut [])) =
    [(false, false, some ([1, 2, 3], some 5)), (false, false, some ([1, 2, 3, 4], some 5)), (true, false, some ([1, 2, 3, 4, 5, 6], some 5))] := by
  decide +kernel

-- rewriting the metadata
example : ([6, 7, 16].map fun k => see (rewriteDisk Toy.env packed (some 6) {} (List.replicate k none ++ [some (k - 5, 0)]))) =
    [(false, true, some ([1, 2, 3], some 5)), (false, true, none), (false, true, some ([1, 2, 3], some 6))] := by decide +kernel
example : see (rewriteDisk Toy.env packed (some 6) {} []) = (true, false, some ([1, 2, 3], some 6)) := by decide +kernel

-- unpacking: reading fails, writing fails, it works
example : (let r := unpackDisk Toy.env packed (List.replicate 10 none ++ [some (0, 0)]) []
    (r.1.toBool, r.2.1.lost.isSome, r.2.2.contents)) = (false, true, [1, 2]) := by decide +kernel
example : (let r := unpackDisk Toy.env packed [] [none, some (0, 1)]
    (r.1.toBool, r.2.2.lost.isSome, r.2.2.contents)) = (false, true, [1]) := by decide +kernel
example : (let r := unpackDisk Toy.env packed [] []
    (r.1.toBool, r.2.2.lost.isSome, r.2.2.contents)) = (true, false, [1, 2, 3]) := by decide +kernel

end DiskExamples

end Bloscpack
