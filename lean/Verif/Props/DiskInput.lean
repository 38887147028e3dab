import Verif.Props.Disk
import Verif.Props.Args
/-
C102: when appending from a file that cannot be read to its end succeeds.
-/
namespace Bloscpack
variable {μ : Type}

/-- `m'` does what `m` does, if `m` succeeds with a result below `cut`, and raises an `OSError` if it succeeds with another one -/
def Needs (cut : Nat) (m m' : Proc FP Int) : Prop :=
  ∀ t k s, m t = (.ok k, s) → (k < cut → m' t = (.ok k, s)) ∧ (cut ≤ k → (m' t).1 = .error .osError)

theorem Needs.bind {α : Type} {cut : Nat} {m : Proc FP α} {f f' : α → Proc FP Int} (h : ∀ a t s, m t = (.ok a, s) → Needs cut (f a) (f' a)) :
    Needs cut (m >>= f) (m >>= f') := by
  intro t k s hm
  obtain ⟨a, s', h1, h2⟩ := Proc.bind_ok_iff.1 hm
  rw [Proc.bind_of_ok h1]
  exact h a t s' h1 _ _ _ h2

theorem nchunks_pos {n : Int} {c : ChunkSizeArg} {k c' l : Int} (h : calculateNchunks n c = .ok (k, c', l)) : 1 ≤ k :=
  (C02_chunking_covers n c k c' l h).2.1

theorem append_needs (E : Env μ) (new : Bytes) (n : Int) (x : AppendArgs) (cut : Nat) :
    Needs cut (appendFp E { data := new } n x)
      (appendFromFailing E (fun k => if cut = 0 then .error .osError else .ok (FP.read { data := new } k).1)
        (fun b => PlainSource.failsAfter (plainFPSource (FP.read { data := new } b).2) (cut - 1)) n x) := by
  have hlen : ∀ (ns : List Int) (f : FP), (readMany ns f).1.length = ns.length := by
    intro ns
    induction ns with
    | nil => intro f; rfl
    | cons x xs ih => intro f; simp [readMany, ih]
  unfold appendFp appendFrom appendFromFailing
  refine Needs.bind fun b _ _ _ => Needs.bind fun impl _ _ _ => Needs.bind fun _ _ _ _ => Needs.bind fun a _ _ _ => Needs.bind fun pos _ _ _ =>
    Needs.bind fun last _ _ _ => Needs.bind fun _ _ _ _ => Needs.bind fun r _ _ _ => Needs.bind fun d _ _ _ => ?_
  dsimp only
  split
  · -- squeezed into the last chunk
    intro t k s hm
    have hk : k = 0 := by
      unfold squeezeIn at hm
      obtain ⟨_, _, -, hm⟩ := Proc.bind_ok_iff.1 hm
      obtain ⟨_, _, -, hm⟩ := Proc.bind_ok_iff.1 hm
      obtain ⟨_, _, -, hm⟩ := Proc.bind_ok_iff.1 hm
      obtain ⟨_, _, -, hm⟩ := Proc.bind_ok_iff.1 hm
      obtain ⟨_, _, -, hm⟩ := Proc.bind_ok_iff.1 hm
      obtain ⟨_, _, -, hm⟩ := Proc.bind_ok_iff.1 hm
      cases hm
      rfl
    subst hk
    refine ⟨fun hlt => ?_, fun hle => ?_⟩
    · rw [if_neg (by omega : ¬ cut = 0), Proc.bind_of_ok (Proc.ofExcept_apply _ _)]
      exact hm
    · rw [if_pos (by omega : cut = 0)]
      rfl
  · by_cases h0 : cut = 0
    · simp only [h0, if_true]
      intro t k s hm
      refine ⟨fun hlt => ?_, fun hle => rfl⟩
      exfalso
      unfold growBy at hm
      obtain ⟨c, _, hc, hm⟩ := Proc.bind_ok_iff.1 hm
      obtain ⟨_, _, -, hm⟩ := Proc.bind_ok_iff.1 hm
      obtain ⟨_, _, -, hm⟩ := Proc.bind_ok_iff.1 hm
      obtain ⟨_, _, -, hm⟩ := Proc.bind_ok_iff.1 hm
      obtain ⟨_, _, -, hm⟩ := Proc.bind_ok_iff.1 hm
      obtain ⟨_, _, -, hm⟩ := Proc.bind_ok_iff.1 hm
      obtain ⟨_, _, -, hm⟩ := Proc.bind_ok_iff.1 hm
      obtain ⟨_, _, -, hm⟩ := Proc.bind_ok_iff.1 hm
      obtain ⟨_, _, -, hm⟩ := Proc.bind_ok_iff.1 hm
      obtain ⟨_, _, -, hm⟩ := Proc.bind_ok_iff.1 hm
      obtain ⟨_, _, -, hm⟩ := Proc.bind_ok_iff.1 hm
      cases hm
      rw [Proc.ofExcept_apply] at hc
      have := nchunks_pos (Prod.mk.inj hc).1
      omega
    · simp only [h0, if_false]
      show Needs cut _ (growByFailing E b.1 impl b.2.2.2 pos last a d _ _ n _)
      unfold growBy growByFailing
      refine Needs.bind fun c _ _ hc => Needs.bind fun _ _ _ _ => Needs.bind fun _ _ _ _ => Needs.bind fun _ _ _ _ => Needs.bind fun _ _ _ _ => ?_
      rw [Proc.ofExcept_apply] at hc
      have hpos := nchunks_pos (Prod.mk.inj hc).1
      have hitems : ((plainFPSource (FP.read { data := new } (b.1.chunk_size - d.length)).2) c.2.1 c.2.2 c.1).items.length = c.1.toNat := by
        simp only [plainFPSource, hlen, List.length_append, List.length_replicate, List.length_cons, List.length_nil]
        omega
      by_cases hlt : cut - 1 < ((plainFPSource (FP.read { data := new } (b.1.chunk_size - d.length)).2) c.2.1 c.2.2 c.1).items.length
      · have e1 : PlainSource.failsAfter (plainFPSource (FP.read { data := new } (b.1.chunk_size - d.length)).2) (cut - 1) c.2.1 c.2.2 c.1 =
            { items := ((plainFPSource (FP.read { data := new } (b.1.chunk_size - d.length)).2) c.2.1 c.2.2 c.1).items.take (cut - 1), stop := some .osError } := by
          simp [PlainSource.failsAfter, hlt]
        simp only [e1]
        intro t k s hm
        have hcl := CutShort.loop E a b.1 impl (repeatList [-1] c.1) ((plainFPSource (FP.read { data := new } (b.1.chunk_size - d.length)).2) c.2.1 c.2.2 c.1).items
          (cut - 1) (α := Int) (f := fun r => do
            let raw ← Proc.ofExcept
              { b.1 with last_chunk := c.2.2, nchunks := b.1.nchunks + c.1, max_app_chunks := b.1.max_app_chunks - c.1 }.encode
            fpSeek 0
            fpWrite raw
            fpSeek pos
            writeOffsets (b.2.2.2 ++ r.2)
            Proc.pure c.1) (fun v =>
          (Sim.bind (.ofExcept _) fun _ => .bind (.seek _) fun _ => .bind (.write _) fun _ => .bind (.seek _) fun _ => .bind (.writeOffsets _) fun _ => .pure _).1) t
        obtain ⟨_, _, -, hm'⟩ := Proc.bind_ok_iff.1 hm
        obtain ⟨_, _, -, hm'⟩ := Proc.bind_ok_iff.1 hm'
        obtain ⟨_, _, -, hm'⟩ := Proc.bind_ok_iff.1 hm'
        obtain ⟨_, _, -, hm'⟩ := Proc.bind_ok_iff.1 hm'
        obtain ⟨_, _, -, hm'⟩ := Proc.bind_ok_iff.1 hm'
        obtain ⟨_, _, -, hm'⟩ := Proc.bind_ok_iff.1 hm'
        have hk : c.1 = k := by cases hm'; rfl
        refine ⟨fun hlt' => by exfalso; omega, fun _ => ?_⟩
        rcases hcl with hcl | ⟨hcl, -⟩
        · exfalso
          have hcl := hcl.trans hm
          obtain ⟨_, _, -, h2⟩ := Proc.bind_ok_iff.1 hcl
          cases h2
        · exact hcl
      · have e1 : PlainSource.failsAfter (plainFPSource (FP.read { data := new } (b.1.chunk_size - d.length)).2) (cut - 1) c.2.1 c.2.2 c.1 =
            plainFPSource (FP.read { data := new } (b.1.chunk_size - d.length)).2 c.2.1 c.2.2 c.1 := by
          simp [PlainSource.failsAfter, hlt]
        simp only [e1]
        intro t k s hm
        refine ⟨fun _ => hm, fun hle => ?_⟩
        exfalso
        obtain ⟨_, _, -, hm'⟩ := Proc.bind_ok_iff.1 hm
        obtain ⟨_, _, -, hm'⟩ := Proc.bind_ok_iff.1 hm'
        obtain ⟨_, _, -, hm'⟩ := Proc.bind_ok_iff.1 hm'
        obtain ⟨_, _, -, hm'⟩ := Proc.bind_ok_iff.1 hm'
        obtain ⟨_, _, -, hm'⟩ := Proc.bind_ok_iff.1 hm'
        obtain ⟨_, _, -, hm'⟩ := Proc.bind_ok_iff.1 hm'
        have hk : c.1 = k := by cases hm'; rfl
        omega

/-- C102 for appending from a file that cannot be read to its end: if the disk with the archive works, then appending, which would write `k` new
chunks, succeeds exactly if the `k + 1` reads it takes succeed. It then does what it does when nothing can fail. -/
theorem C102_append_input_works (E : Env μ) (orig new : Bytes) (args : AppendArgs) (cut : Nat) (faults : List (Option (Nat × Nat)))
    (hf : ∀ f ∈ faults, f = none) (k : Int) (fp : FP) (hr : appendFp E { data := new } new.length args { data := orig } = (.ok k, fp)) :
    (k < cut → ∃ disk, appendBothDisks E orig new args cut faults = (.ok k, disk) ∧ disk.contents = fp.data) ∧
    (cut ≤ k → (appendBothDisks E orig new args cut faults).1 = .error .osError) := by
  have hw := Disk.within_cases (Sim.appendFromFailing E (fun k => if cut = 0 then .error .osError else .ok (FP.read { data := new } k).1)
    (fun b => PlainSource.failsAfter (plainFPSource (FP.read { data := new } b).2) (cut - 1)) new.length args) (Disk.opened orig faults) rfl
  have hn := append_needs E new new.length args cut _ _ _ hr
  change (appendBothDisks E orig new args cut faults).2.lost = none ∧ (appendBothDisks E orig new args cut faults).1 = _ ∧
    (appendBothDisks E orig new args cut faults).2.fp = _ ∨ (appendBothDisks E orig new args cut faults).2.lost ≠ none ∧
    (appendBothDisks E orig new args cut faults).1 = .error .osError ∧ Disk.Failed (Disk.opened orig faults) (appendBothDisks E orig new args cut faults).2 _ at hw
  generalize appendBothDisks E orig new args cut faults = q at hw
  obtain ⟨r', disk⟩ := q
  rcases hw with ⟨h1, h2, h3⟩ | ⟨-, -, k', x, -, -, hm, -⟩
  · simp only at h1 h2 h3
    change r' = (appendFromFailing E _ _ new.length args ({ data := orig } : FP)).1 at h2
    change disk.fp = (appendFromFailing E _ _ new.length args ({ data := orig } : FP)).2 at h3
    refine ⟨fun hlt => ⟨disk, ?_, ?_⟩, fun hle => ?_⟩
    · rw [h2, hn.1 hlt]
    · rw [Disk.contents, h1, Option.getD_none, h3, hn.1 hlt]
    · exact h2.trans (hn.2 hle)
  · cases hf _ hm

/-- appending seven bytes to an archive with three bytes in two chunks of two: one byte goes into the last chunk, the others into three new ones -/
def appendFourReads (cut : Nat) : Option Int :=
  (appendBothDisks Toy.env ((packBytes Toy.env [1, 2, 3] (.int 2) none {} {} {}).2.map (·.data) |>.getD []) [4, 5, 6, 7, 8, 9, 10] {} cut []).1.toOption

-- four reads are needed
example : appendFourReads 3 = none ∧ appendFourReads 4 = some 3 := by decide +kernel

end Bloscpack
