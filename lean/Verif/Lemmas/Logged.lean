import Verif.Model.Append
import Verif.Spec.Crash
import Verif.Lemmas.ReadOnly
import Verif.Lemmas.Crash
/-
The ghost log of a file is accurate: replaying the writes of a run on the contents before gives the contents after. This
holds for every run, successful or not, of every writing function.
-/
namespace Bloscpack
variable {μ σ α β : Type}

/-- the writes of `m` to the file `f` of its state are all in the log -/
def Logged (f : σ → FP) (m : Proc σ α) : Prop :=
  ∀ s, ∃ w, (f (m s).2).log = (f s).log ++ w ∧ (f (m s).2).data = Spec.replay (f s).data w

namespace Logged
variable {f : σ → FP}

theorem of_eq {m : Proc σ α} (h : ∀ s, (f (m s).2).log = (f s).log ∧ (f (m s).2).data = (f s).data) : Logged f m :=
  fun s => ⟨[], by simp [h s], (h s).2⟩

theorem pure (a : α) : Logged f (Proc.pure a) := of_eq fun _ => ⟨rfl, rfl⟩
theorem raise (e : Err) : Logged f (Proc.raise e : Proc σ α) := of_eq fun _ => ⟨rfl, rfl⟩
theorem ofExcept (x : Except Err α) : Logged f (Proc.ofExcept x) := of_eq fun _ => ⟨rfl, rfl⟩
theorem raiseIf (b : Prop) [Decidable b] (e : Err) : Logged f (Proc.raiseIf b e) := by
  unfold Proc.raiseIf
  split
  · exact raise e
  · exact pure ()

theorem bind {m : Proc σ α} {g : α → Proc σ β} (hm : Logged f m) (hg : ∀ a, Logged f (g a)) : Logged f (m >>= g) := by
  intro s
  obtain ⟨w, h1, h2⟩ := hm s
  show ∃ w, (f (Proc.bind m g s).2).log = _ ∧ (f (Proc.bind m g s).2).data = _
  unfold Proc.bind
  generalize m s = q at h1 h2
  obtain ⟨r, s'⟩ := q
  cases r with
  | error e => exact ⟨w, h1, h2⟩
  | ok a =>
    obtain ⟨w', h3, h4⟩ := hg a s'
    refine ⟨w ++ w', ?_, ?_⟩
    · rw [h3, h1, List.append_assoc]
    · rw [h4, h2, replay_append]

theorem readOnly {m : Proc FP α} (h : ReadOnly m) : Logged id m := of_eq fun s => ⟨(h s).2, (h s).1⟩

theorem write (bs : Bytes) : Logged id (fpWrite bs) := fun fp => ⟨[(fp.pos, bs)], rfl, rfl⟩

theorem zeros (n : Nat) : Logged id (writeZeros n) := by
  induction n with
  | zero => exact pure ()
  | succ n ih => exact bind (write _) fun _ => ih

theorem writeMetadata (E : Env μ) (md : Option μ) (x : MetadataArgs) : Logged id (writeMetadata E md x) := by
  unfold Bloscpack.writeMetadata
  refine bind (ofExcept _) fun s => bind (write _) fun _ => bind (write _) fun _ => bind (zeros _) fun _ => ?_
  split
  · exact bind (write _) fun _ => pure _
  · exact pure _

theorem writeOffsets (os : List Int) : Logged id (writeOffsets os) := bind (ofExcept _) fun _ => write _

theorem writeCompressedChunk (c d : Bytes) : Logged id (writeCompressedChunk c d) := by
  unfold Bloscpack.writeCompressedChunk
  refine bind (write _) fun _ => ?_
  split
  · exact write _
  · exact pure _

theorem onFP {m : Proc FP α} (h : Logged id m) : Logged FPSinkOf.fp (FPSink.onFP m) := fun s => h s.fp

theorem put (i : Nat) (c : Bytes) : Logged FPSinkOf.fp (FPSink.put i c) := by
  unfold FPSink.put
  refine bind (of_eq fun _ => ⟨rfl, rfl⟩) fun s => bind (onFP (writeCompressedChunk _ _)) fun _ => ?_
  split
  · exact bind (ofExcept _) fun _ => of_eq fun _ => ⟨rfl, rfl⟩
  · exact pure _

theorem appendLoop (E : Env μ) (a : BloscArgs) (i : Nat) (cs : List Bytes) : Logged FPSinkOf.fp (appendLoop E a i cs) := by
  induction cs generalizing i with
  | nil => exact pure ()
  | cons c cs ih => exact bind (ofExcept _) fun _ => bind (put _ _) fun _ => ih _

theorem withSink (h : BloscpackHeader) (impl : Hash) (st : List Int) {m : Proc FPSink α} (hm : Logged FPSinkOf.fp m) :
    Logged id (withSink h impl st m) := by
  intro fp
  have := hm { fp := fp, header := h, impl := impl, offset_storage := st }
  unfold Bloscpack.withSink
  split <;> rename_i h <;> rw [h] at this <;> exact this

theorem appendFrom (E : Env μ) (first : Int → Bytes) (source : Int → Int → Int → Int → List Bytes) (n : Int) (x : AppendArgs) :
    Logged id (appendFrom E first source n x) := by
  unfold Bloscpack.appendFrom
  refine bind (readOnly (.readBeginning E)) fun b => bind (ofExcept _) fun _ => bind (raiseIf _ _) fun _ =>
    bind (ofExcept _) fun _ => bind (ofExcept _) fun _ => bind (ofExcept _) fun _ => bind (readOnly (.seek _)) fun _ =>
    bind (readOnly (.readCompressedChunk _)) fun _ => bind (ofExcept _) fun d => ?_
  dsimp only
  split
  · unfold squeezeIn
    exact bind (readOnly (.seek _)) fun _ => bind (ofExcept _) fun _ => bind (writeCompressedChunk _ _) fun _ =>
      bind (ofExcept _) fun _ => bind (readOnly (.seek _)) fun _ => bind (write _) fun _ => pure _
  · unfold growBy
    exact bind (ofExcept _) fun _ => bind (raiseIf _ _) fun _ => bind (readOnly (.seek _)) fun _ => bind (ofExcept _) fun _ =>
      bind (writeCompressedChunk _ _) fun _ => bind (withSink _ _ _ (appendLoop _ _ _ _)) fun _ => bind (ofExcept _) fun _ =>
      bind (readOnly (.seek _)) fun _ => bind (write _) fun _ => bind (readOnly (.seek _)) fun _ =>
      bind (writeOffsets _) fun _ => pure _

theorem appendFp (E : Env μ) (new : FP) (n : Int) (x : AppendArgs) : Logged id (appendFp E new n x) := appendFrom _ _ _ _ _

theorem rewriteMetadata (E : Env μ) (md : Option μ) (x : RewriteArgs) : Logged id (rewriteMetadata E md x) := by
  unfold Bloscpack.rewriteMetadata seekToMetadata rewriteMetadataFp
  exact bind (bind (readOnly .readBloscpackHeader) fun _ => bind (raiseIf _ _) fun _ => readOnly .tell) fun _ =>
    bind (readOnly .tell) fun _ => bind (readOnly (.readMetadata E)) fun _ => bind (raiseIf _ _) fun _ =>
    bind (ofExcept _) fun _ => bind (readOnly (.seek _)) fun _ => bind (writeMetadata _ _ _) fun _ => pure _

end Logged

/-- a file that was opened with an empty log: the log at the end is all the writes -/
theorem Logged.opened {m : Proc FP α} (h : Logged id m) (d : Bytes) (p : Nat) :
    (m { data := d, pos := p }).2.data = Spec.replay d (m { data := d, pos := p }).2.log := by
  obtain ⟨w, h1, h2⟩ := h { data := d, pos := p }
  simp only [id, List.nil_append] at h1 h2
  rw [h2, h1]

end Bloscpack
