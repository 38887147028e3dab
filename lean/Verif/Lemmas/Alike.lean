import Verif.Lemmas.InMemory
import Verif.Model.Append

/-! Procedures that do the same to a file object as to a counterpart of it (in memory, or with other writes in its past). -/
namespace Bloscpack
variable {μ α β σ : Type}

/-- a procedure that does the same to a state `s` as to its counterpart `t s`, unless it raises `OSError` (and that only if `Q`) -/
def Alike (Q : Prop) (t : σ → σ) (m : Proc σ α) : Prop :=
  ∀ s, m (t s) = ((m s).1, t (m s).2) ∨ (Q ∧ (m s).1 = .error .osError)

/-- counterparts of file objects: their methods do the same -/
structure Carrier (Q : Prop) (t : FP → FP) : Prop where
  read : ∀ n, Alike Q t (fpRead (σ := FP) n)
  seekRel : ∀ n, Alike Q t (fpSeekRel (σ := FP) n)
  write : ∀ bs, Alike Q t (fpWrite bs)
  seek : ∀ n, Alike Q t (fpSeek n)
  tell : ∀ fp, (t fp).pos = fp.pos

/-- a sink that writes to the counterpart -/
def FPSink.lift (t : FP → FP) (s : FPSink) : FPSink := { s with fp := t s.fp }

namespace Alike
section
variable {Q : Prop} {t : σ → σ}

theorem pure (a : α) : Alike Q t (Proc.pure a) := fun _ => .inl rfl
theorem raise (e : Err) : Alike Q t (Proc.raise e : Proc σ α) := fun _ => .inl rfl
theorem ofExcept (x : Except Err α) : Alike Q t (Proc.ofExcept x) := fun _ => .inl rfl
theorem raiseIf (bad : Prop) [Decidable bad] (e : Err) : Alike Q t (Proc.raiseIf bad e) := by
  unfold Proc.raiseIf; split
  · exact raise e
  · exact pure ()
theorem bind {m : Proc σ α} {f : α → Proc σ β} (hm : Alike Q t m) (hf : ∀ a, Alike Q t (f a)) : Alike Q t (m >>= f) := by
  intro s
  rw [Proc.bind_apply, Proc.bind_apply]
  rcases hm s with h | ⟨q, h⟩
  · rw [h]
    rcases m s with ⟨x, s'⟩
    cases x with
    | error e => exact .inl rfl
    | ok a => exact hf a s'
  · refine .inr ⟨q, ?_⟩
    generalize m s = r at h
    obtain ⟨x, s'⟩ := r
    cases h
    rfl
end

variable {Q : Prop} {t : FP → FP} (C : Carrier Q t)
include C

theorem tell : Alike Q t fpTell := by
  intro fp
  left
  show (Except.ok (t fp).pos, t fp) = _
  rw [C.tell]
  rfl

theorem zeros (n : Nat) : Alike Q t (writeZeros n) := by
  induction n with
  | zero => exact pure ()
  | succ n ih => exact bind (C.write _) fun _ => ih

theorem writeMetadata (E : Env μ) (md : Option μ) (x : MetadataArgs) : Alike Q t (writeMetadata E md x) := by
  unfold Bloscpack.writeMetadata
  refine bind (ofExcept _) fun s => bind (C.write _) fun _ => bind (C.write _) fun _ => bind (zeros C _) fun _ => ?_
  split
  · exact bind (C.write _) fun _ => pure _
  · exact pure _

theorem writeOffsets (os : List Int) : Alike Q t (writeOffsets os) := bind (ofExcept _) fun _ => C.write _

theorem writeCompressedChunk (c d : Bytes) : Alike Q t (writeCompressedChunk c d) := by
  unfold Bloscpack.writeCompressedChunk
  refine bind (C.write _) fun _ => ?_
  split
  · exact C.write _
  · exact pure _

omit C in
theorem onFP {m : Proc FP α} (h : Alike Q t m) : Alike Q (FPSink.lift t) (FPSink.onFP m) := by
  intro s
  unfold FPSink.onFP FPSink.lift
  rcases h s.fp with h | h
  · left; simp only [h]
  · right; exact h

theorem put (i : Nat) (c : Bytes) : Alike Q (FPSink.lift t) (FPSink.put i c) := by
  intro s
  have h : ∀ pos : Nat, Alike Q (FPSink.lift t) (do
      FPSink.onFP (Bloscpack.writeCompressedChunk c (doChecksum s.impl c))
      if s.header.offsets then do
        let os ← Proc.ofExcept (setItem s.offset_storage i pos)
        Proc.modify (fun s => { s with offset_storage := os })
      else Proc.pure ()) := by
    intro pos
    refine bind (onFP (writeCompressedChunk C _ _)) fun _ => ?_
    split
    · exact bind (ofExcept _) fun _ _ => .inl rfl
    · exact pure _
  have e : FPSink.put i c (FPSink.lift t s) = (do
      FPSink.onFP (Bloscpack.writeCompressedChunk c (doChecksum s.impl c))
      if s.header.offsets then do
        let os ← Proc.ofExcept (setItem s.offset_storage i (FPSink.lift t s).fp.tell)
        Proc.modify (fun s => { s with offset_storage := os })
      else Proc.pure ()) (FPSink.lift t s) := rfl
  rw [e, show (FPSink.lift t s).fp.tell = s.fp.tell from C.tell s.fp]
  exact h s.fp.tell s

theorem appendLoop (E : Env μ) (a : BloscArgs) (i : Nat) (cs : List Bytes) : Alike Q (FPSink.lift t) (appendLoop E a i cs) := by
  induction cs generalizing i with
  | nil => exact pure ()
  | cons c cs ih => exact bind (ofExcept _) fun _ => bind (put C _ _) fun _ => ih _

omit C in
theorem withSink (h : BloscpackHeader) (impl : Hash) (st : List Int) {m : Proc FPSink α} (hm : Alike Q (FPSink.lift t) m) :
    Alike Q t (withSink h impl st m) := by
  intro fp
  have := hm { fp := fp, header := h, impl := impl, offset_storage := st }
  unfold Bloscpack.withSink
  rcases this with h1 | ⟨q, h1⟩
  · left
    have h1 : m { fp := t fp, header := h, impl := impl, offset_storage := st } = _ := h1
    rw [h1]
    generalize m { fp := fp, header := h, impl := impl, offset_storage := st } = r
    obtain ⟨r, s⟩ := r
    cases r <;> rfl
  · refine .inr ⟨q, ?_⟩
    generalize m { fp := fp, header := h, impl := impl, offset_storage := st } = r at h1
    obtain ⟨r, s⟩ := r
    cases h1
    rfl

theorem readBloscpackHeader : Alike Q t (readBloscpackHeader (σ := FP)) :=
  bind (C.read _) fun _ => bind (ofExcept _) fun _ => bind (raiseIf _ _) fun _ => pure _

theorem readOffsets (h : BloscpackHeader) : Alike Q t (readOffsets (σ := FP) h) := by
  unfold Bloscpack.readOffsets
  split
  · split
    · exact raise _
    · exact bind (raiseIf _ _) fun _ => bind (C.read _) fun _ => ofExcept _
  · exact pure _

theorem readCompressedChunk (impl : Hash) : Alike Q t (readCompressedChunk (σ := FP) impl) := by
  unfold Bloscpack.readCompressedChunk
  refine bind (C.read _) fun _ => bind (ofExcept _) fun _ => bind (C.seekRel _) fun _ => bind (C.read _) fun _ => ?_
  split
  · exact bind (C.read _) fun _ => pure _
  · exact pure _

theorem readMetadata (E : Env μ) : Alike Q t (readMetadata (σ := FP) E) := by
  unfold Bloscpack.readMetadata
  refine bind (C.read _) fun _ => bind (ofExcept _) fun h => bind (C.read _) fun _ => bind (C.seekRel _) fun _ => ?_
  split
  · exact bind (ofExcept _) fun _ => bind (C.read _) fun _ => bind (raiseIf _ _) fun _ => bind (ofExcept _) fun _ => pure _
  · exact bind (ofExcept _) fun _ => pure _

theorem readBeginning (E : Env μ) : Alike Q t (readBeginning (σ := FP) E) := by
  unfold Bloscpack.readBeginning
  refine bind (readBloscpackHeader C) fun h => bind ?_ fun _ => bind (readOffsets C h) fun _ => pure _
  split
  · exact bind (readMetadata C E) fun _ => pure _
  · exact pure _

theorem appendFrom (E : Env μ) (first : Int → Bytes) (source : Int → Int → Int → Int → List Bytes) (n : Int) (x : AppendArgs) :
    Alike Q t (appendFrom E first source n x) := by
  unfold Bloscpack.appendFrom
  refine bind (readBeginning C E) fun b => bind (ofExcept _) fun _ => bind (raiseIf _ _) fun _ =>
    bind (ofExcept _) fun _ => bind (ofExcept _) fun _ => bind (ofExcept _) fun _ => bind (C.seek _) fun _ =>
    bind (readCompressedChunk C _) fun _ => bind (ofExcept _) fun d => ?_
  dsimp only
  split
  · unfold squeezeIn
    exact bind (C.seek _) fun _ => bind (ofExcept _) fun _ => bind (writeCompressedChunk C _ _) fun _ =>
      bind (ofExcept _) fun _ => bind (C.seek _) fun _ => bind (C.write _) fun _ => pure _
  · unfold growBy
    exact bind (ofExcept _) fun _ => bind (raiseIf _ _) fun _ => bind (C.seek _) fun _ => bind (ofExcept _) fun _ =>
      bind (writeCompressedChunk C _ _) fun _ => bind (withSink _ _ _ (appendLoop C _ _ _ _)) fun _ => bind (ofExcept _) fun _ =>
      bind (C.seek _) fun _ => bind (C.write _) fun _ => bind (C.seek _) fun _ =>
      bind (writeOffsets C _) fun _ => pure _

theorem rewriteMetadata (E : Env μ) (md : Option μ) (x : RewriteArgs) : Alike Q t (rewriteMetadata E md x) := by
  unfold Bloscpack.rewriteMetadata seekToMetadata rewriteMetadataFp
  exact bind (bind (readBloscpackHeader C) fun _ => bind (raiseIf _ _) fun _ => tell C) fun _ =>
    bind (tell C) fun _ => bind (readMetadata C E) fun _ => bind (raiseIf _ _) fun _ =>
    bind (ofExcept _) fun _ => bind (C.seek _) fun _ => bind (writeMetadata C _ _ _) fun _ => pure _

end Alike

/-- `BytesIO` objects do the same as files, except that files may raise `OSError` -/
theorem FP.toMemory_carrier : Carrier True FP.toMemory where
  read := fun _ _ => .inl rfl
  write := fun _ _ => .inl rfl
  tell := fun _ => rfl
  seek := by
    intro n fp
    obtain ⟨d, p, l, k⟩ := fp
    simp only [fpSeek_eq]; unfold FP.seek FP.toMemory
    by_cases h : n < 0
    · cases k
      · right; simp [h]
      · left; simp [h]
    · left; simp [h]
  seekRel := by
    intro n fp
    obtain ⟨d, p, l, k⟩ := fp
    rw [fpSeekRel_eq, fpSeekRel_eq]
    unfold FP.seekRel FP.toMemory
    by_cases h : (p : Int) + n < 0
    · cases k
      · right; simp [h]
      · left; simp
    · left; simp [h]

/-- the same file object, with other writes before -/
def FP.after (l : List (Nat × Bytes)) (fp : FP) : FP := { fp with log := l ++ fp.log }

/-- what was written before does not matter -/
theorem FP.after_carrier (l : List (Nat × Bytes)) : Carrier False (FP.after l) where
  read := fun _ _ => .inl rfl
  write := by
    intro bs fp
    left
    show (Except.ok (), (FP.after l fp).write bs) = (Except.ok (), FP.after l (fp.write bs))
    unfold FP.write FP.after
    simp
  tell := fun _ => rfl
  seek := by
    intro n fp
    left
    simp only [fpSeek_eq]; unfold FP.seek FP.after
    by_cases h : n < 0 <;> simp [h]
  seekRel := by
    intro n fp
    left
    rw [fpSeekRel_eq, fpSeekRel_eq]
    unfold FP.seekRel FP.after
    by_cases h : (fp.pos : Int) + n < 0 ∧ fp.inMemory = false <;> simp [h]

end Bloscpack
