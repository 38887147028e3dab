import Verif.Model.FileIO
import Verif.Lemmas.Prim
/-
The reading functions change neither the contents of the file nor its write log.
-/
namespace Bloscpack
variable {μ : Type}

/-- a procedure that only moves the position -/
def ReadOnly {α : Type} (p : Proc FP α) : Prop := ∀ fp, (p fp).2.data = fp.data ∧ (p fp).2.log = fp.log

namespace ReadOnly
variable {α β : Type}

theorem pure (a : α) : ReadOnly (Proc.pure a) := fun _ => ⟨rfl, rfl⟩
theorem raise (e : Err) : ReadOnly (Proc.raise e : Proc FP α) := fun _ => ⟨rfl, rfl⟩
theorem ofExcept (x : Except Err α) : ReadOnly (Proc.ofExcept x) := fun _ => ⟨rfl, rfl⟩
theorem raiseIf (b : Prop) [Decidable b] (e : Err) : ReadOnly (Proc.raiseIf b e) := by
  unfold Proc.raiseIf
  split
  · exact raise e
  · exact pure ()

theorem bind {p : Proc FP α} {f : α → Proc FP β} (hp : ReadOnly p) (hf : ∀ a, ReadOnly (f a)) : ReadOnly (p >>= f) := by
  intro fp
  have h := hp fp
  show (Proc.bind p f fp).2.data = _ ∧ (Proc.bind p f fp).2.log = _
  unfold Proc.bind
  generalize p fp = q at h
  obtain ⟨r, fp'⟩ := q
  cases r with
  | error e => exact h
  | ok a =>
    have h' := hf a fp'
    exact ⟨h'.1.trans h.1, h'.2.trans h.2⟩

theorem read (n : Int) : ReadOnly (fpRead n) := fun _ => ⟨rfl, rfl⟩
theorem tell : ReadOnly fpTell := fun _ => ⟨rfl, rfl⟩
theorem seek (n : Int) : ReadOnly (fpSeek n) := by
  intro fp
  rw [fpSeek_eq]; unfold FP.seek
  split <;> (rename_i h; split at h <;> cases h <;> exact ⟨rfl, rfl⟩)
theorem seekRel (n : Int) : ReadOnly (fpSeekRel n) := by
  intro fp
  rw [fpSeekRel_eq]; unfold FP.seekRel
  split <;> (rename_i h; split at h <;> cases h <;> exact ⟨rfl, rfl⟩)

theorem readMetadata (E : Env μ) : ReadOnly (readMetadata E) := by
  unfold Bloscpack.readMetadata
  refine bind (read _) fun _ => bind (ofExcept _) fun h => bind (read _) fun _ => bind (seekRel _) fun _ => ?_
  split
  · exact bind (ofExcept _) fun _ => bind (read _) fun _ => bind (raiseIf _ _) fun _ => bind (ofExcept _) fun _ => pure _
  · exact bind (ofExcept _) fun _ => pure _

theorem readOffsets (h : BloscpackHeader) : ReadOnly (readOffsets h) := by
  unfold Bloscpack.readOffsets
  split
  · split
    · exact raise _
    · exact bind (raiseIf _ _) fun _ => bind (read _) fun _ => ofExcept _
  · exact pure _

theorem readBloscpackHeader : ReadOnly readBloscpackHeader := by
  unfold Bloscpack.readBloscpackHeader
  exact bind (read _) fun _ => bind (ofExcept _) fun _ => bind (raiseIf _ _) fun _ => pure _

theorem readBeginning (E : Env μ) : ReadOnly (readBeginning E) := by
  unfold Bloscpack.readBeginning
  refine bind readBloscpackHeader fun h => bind ?_ fun _ => bind (readOffsets h) fun _ => pure _
  split
  · exact bind (readMetadata E) fun _ => pure _
  · exact pure _

theorem readCompressedChunk (impl : Hash) : ReadOnly (readCompressedChunk impl) := by
  unfold Bloscpack.readCompressedChunk
  repeat' first
    | refine bind ?_ fun _ => ?_
    | exact read _
    | exact ofExcept _
    | exact seekRel _
    | exact pure _
    | exact raiseIf _ _
    | split

end ReadOnly

theorem readBeginning_data {E : Env μ} {fp fp' : FP} {r} (h : readBeginning E fp = (r, fp')) : fp'.data = fp.data := by
  have := (ReadOnly.readBeginning E fp).1
  rw [h] at this
  exact this

/-- a procedure that works on the file it was given, whether in memory or not -/
def SameKind {α : Type} (p : Proc FP α) : Prop := ∀ fp, (p fp).2.inMemory = fp.inMemory

namespace SameKind
variable {α β : Type}

theorem pure (a : α) : SameKind (Proc.pure a) := fun _ => rfl
theorem raise (e : Err) : SameKind (Proc.raise e : Proc FP α) := fun _ => rfl
theorem ofExcept (x : Except Err α) : SameKind (Proc.ofExcept x) := fun _ => rfl
theorem raiseIf (b : Prop) [Decidable b] (e : Err) : SameKind (Proc.raiseIf b e) := by
  unfold Proc.raiseIf
  split
  · exact raise e
  · exact pure ()
theorem bind {p : Proc FP α} {f : α → Proc FP β} (hp : SameKind p) (hf : ∀ a, SameKind (f a)) : SameKind (p >>= f) := by
  intro fp
  have h := hp fp
  show (Proc.bind p f fp).2.inMemory = _
  unfold Proc.bind
  generalize p fp = q at h
  obtain ⟨r, fp'⟩ := q
  cases r with
  | error e => exact h
  | ok a => exact (hf a fp').trans h
theorem read (n : Int) : SameKind (fpRead n) := fun _ => rfl
theorem seekRel (n : Int) : SameKind (fpSeekRel n) := by
  intro fp
  rw [fpSeekRel_eq]; unfold FP.seekRel
  split <;> (rename_i h; split at h <;> cases h <;> rfl)

theorem readBeginning (E : Env μ) : SameKind (readBeginning E) := by
  unfold Bloscpack.readBeginning Bloscpack.readBloscpackHeader Bloscpack.readMetadata Bloscpack.readOffsets
  repeat' first
    | refine bind ?_ fun _ => ?_
    | exact read _
    | exact ofExcept _
    | exact seekRel _
    | exact pure _
    | exact raise _
    | exact raiseIf _ _
    | split

end SameKind

/-- a procedure that leaves the file alone if it raises -/
def FailsClean {α : Type} (p : Proc FP α) : Prop := ∀ fp e fp', p fp = (.error e, fp') → fp'.data = fp.data ∧ fp'.log = fp.log

theorem ReadOnly.failsClean {α : Type} {p : Proc FP α} (h : ReadOnly p) : FailsClean p := by
  intro fp e fp' hp
  have := h fp
  rw [hp] at this; exact this

theorem FailsClean.bind {α β : Type} {p : Proc FP α} {f : α → Proc FP β} (hp : ReadOnly p) (hf : ∀ a, FailsClean (f a)) :
    FailsClean (p >>= f) := by
  intro fp e fp' h
  have h1 := hp fp
  cases hq : p fp with
  | mk r s =>
    rw [hq] at h1
    cases r with
    | error e' => rw [Proc.bind_of_error hq] at h; cases h; exact h1
    | ok a =>
      rw [Proc.bind_of_ok hq] at h
      have h2 := hf a s e fp' h
      exact ⟨h2.1.trans h1.1, h2.2.trans h1.2⟩

end Bloscpack
