import Verif.Model.Concurrent
import Verif.Spec.Concurrent
import Verif.Lemmas.Logged
import Verif.Lemmas.Prim
/-
Writing functions do not look at the contents of the file; writes to different places do not disturb each other.
-/
namespace Bloscpack
variable {μ σ α β : Type}

/-! ### reading comes first -/

theorem Proc.bind_assoc' {γ : Type} (m : Proc σ α) (f : α → Proc σ β) (g : β → Proc σ γ) :
    (m >>= f) >>= g = m >>= fun a => f a >>= g := by
  funext s
  show Proc.bind (Proc.bind m f) g s = Proc.bind m (fun a => Proc.bind (f a) g) s
  unfold Proc.bind
  cases m s with
  | mk r s' => cases r <;> rfl

theorem Proc.pure_bind_eq (a : α) (f : α → Proc σ β) : (Proc.pure a : Proc σ α) >>= f = f a := rfl

/-- `append_fp` first reads the archive, then writes to it. -/
theorem appendFrom_parts (E : Env μ) (first : Int → Bytes) (source : Int → Int → Int → Int → List Bytes) (n : Int) (args : AppendArgs) :
    appendFrom E first source n args = appendPlan E args >>= appendWrite E first source n := by
  unfold appendFrom appendPlan
  simp only [Proc.bind_assoc', Proc.pure_bind_eq]
  rfl

/-! ### writing does not look -/

/-- two files that differ in contents only -/
def OnlyData (fp fp' : FP) : Prop := fp' = { fp with data := fp'.data }

/-- the procedure does the same on states that differ in the contents of the file only -/
def Blind (R : σ → σ → Prop) (m : Proc σ α) : Prop := ∀ s s', R s s' → (m s).1 = (m s').1 ∧ R (m s).2 (m s').2

/-- two sinks whose files differ in contents only -/
def SinkOnlyData (s s' : FPSink) : Prop := OnlyData s.fp s'.fp ∧ s' = { s with fp := s'.fp }

namespace Blind
variable {R : σ → σ → Prop}

theorem pure (a : α) : Blind R (Proc.pure a) := fun _ _ h => ⟨rfl, h⟩
theorem raise (e : Err) : Blind R (Proc.raise e : Proc σ α) := fun _ _ h => ⟨rfl, h⟩
theorem ofExcept (x : Except Err α) : Blind R (Proc.ofExcept x) := fun _ _ h => ⟨rfl, h⟩
theorem raiseIf (b : Prop) [Decidable b] (e : Err) : Blind R (Proc.raiseIf b e) := by
  unfold Proc.raiseIf
  split
  · exact raise e
  · exact pure ()

theorem bind {m : Proc σ α} {g : α → Proc σ β} (hm : Blind R m) (hg : ∀ a, Blind R (g a)) : Blind R (m >>= g) := by
  intro s s' h
  have h1 := hm s s' h
  show (Proc.bind m g s).1 = (Proc.bind m g s').1 ∧ R (Proc.bind m g s).2 (Proc.bind m g s').2
  unfold Proc.bind
  generalize m s = x at h1
  generalize m s' = y at h1
  obtain ⟨r, t⟩ := x
  obtain ⟨r', t'⟩ := y
  obtain ⟨rfl, h2⟩ : r = r' ∧ R t t' := h1
  cases r with
  | error e => exact ⟨rfl, h2⟩
  | ok a => exact hg a t t' h2

theorem seek (n : Int) : Blind OnlyData (fpSeek n) := by
  intro fp fp' h
  obtain ⟨d, rfl⟩ : ∃ d, fp' = { fp with data := d } := ⟨_, h⟩
  simp only [fpSeek_eq]; unfold FP.seek
  by_cases hn : n < 0
  · simp only [hn, if_true]; exact ⟨trivial, h⟩
  · simp only [hn, if_false]; exact ⟨trivial, rfl⟩

theorem write (bs : Bytes) : Blind OnlyData (fpWrite bs) := by
  intro fp fp' h
  obtain ⟨d, rfl⟩ : ∃ d, fp' = { fp with data := d } := ⟨_, h⟩
  exact ⟨rfl, rfl⟩

theorem writeCompressedChunk (c d : Bytes) : Blind OnlyData (writeCompressedChunk c d) := by
  unfold Bloscpack.writeCompressedChunk
  refine bind (write _) fun _ => ?_
  split
  · exact write _
  · exact pure _

theorem writeOffsets (os : List Int) : Blind OnlyData (writeOffsets os) := bind (ofExcept _) fun _ => write _

theorem onFP {m : Proc FP α} (h : Blind OnlyData m) : Blind SinkOnlyData (FPSink.onFP m) := by
  intro s s' ⟨h1, h2⟩
  obtain ⟨h3, h4⟩ := h s.fp s'.fp h1
  refine ⟨h3, h4, ?_⟩
  obtain ⟨g, rfl⟩ : ∃ g, s' = { s with fp := g } := ⟨_, h2⟩
  rfl

theorem put (i : Nat) (c : Bytes) : Blind SinkOnlyData (FPSink.put i c) := by
  intro s s' h
  obtain ⟨h1, h2⟩ := h
  have hp : Writable.tell s'.fp = Writable.tell s.fp := by rw [h1]; rfl
  have hi : s'.impl = s.impl := by rw [h2]
  have hh : s'.header = s.header := by rw [h2]
  have ho : s'.offset_storage = s.offset_storage := by rw [h2]
  unfold FPSink.put
  show (Proc.bind Proc.get _ s).1 = (Proc.bind Proc.get _ s').1 ∧ SinkOnlyData (Proc.bind Proc.get _ s).2 (Proc.bind Proc.get _ s').2
  unfold Proc.bind Proc.get
  simp only [hp, hi, hh, ho]
  refine bind (onFP (writeCompressedChunk _ _)) (fun _ => ?_) s s' ⟨h1, h2⟩
  split
  · refine bind (ofExcept _) fun os => ?_
    intro t t' ⟨h3, h4⟩
    refine ⟨rfl, h3, ?_⟩
    show ({ t' with offset_storage := os } : FPSink) = { t with offset_storage := os, fp := t'.fp }
    rw [h4]
  · exact pure _

theorem appendLoop (E : Env μ) (a : BloscArgs) (i : Nat) (cs : List Bytes) : Blind SinkOnlyData (appendLoop E a i cs) := by
  induction cs generalizing i with
  | nil => exact pure ()
  | cons c cs ih => exact bind (ofExcept _) fun _ => bind (put _ _) fun _ => ih _

theorem withSink (h : BloscpackHeader) (impl : Hash) (st : List Int) {m : Proc FPSink α} (hm : Blind SinkOnlyData m) :
    Blind OnlyData (withSink h impl st m) := by
  intro fp fp' hfp
  have h1 := hm { fp := fp, header := h, impl := impl, offset_storage := st } { fp := fp', header := h, impl := impl, offset_storage := st }
    ⟨hfp, rfl⟩
  unfold Bloscpack.withSink
  generalize m { fp := fp, header := h, impl := impl, offset_storage := st } = x at h1
  generalize m { fp := fp', header := h, impl := impl, offset_storage := st } = y at h1
  obtain ⟨r, t⟩ := x
  obtain ⟨r', t'⟩ := y
  obtain ⟨rfl, h2, h3⟩ : r = r' ∧ SinkOnlyData t t' := h1
  cases r with
  | error e => exact ⟨rfl, h2⟩
  | ok a =>
    have : t'.offset_storage = t.offset_storage := by rw [h3]
    exact ⟨by simp only [this], h2⟩

theorem appendWrite (E : Env μ) (first : Int → Bytes) (source : Int → Int → Int → Int → List Bytes) (n : Int) (p : AppendPlan) :
    Blind OnlyData (appendWrite E first source n p) := by
  unfold Bloscpack.appendWrite
  dsimp only
  split
  · unfold squeezeIn
    exact bind (seek _) fun _ => bind (ofExcept _) fun _ => bind (writeCompressedChunk _ _) fun _ =>
      bind (ofExcept _) fun _ => bind (seek _) fun _ => bind (write _) fun _ => pure _
  · unfold growBy
    exact bind (ofExcept _) fun _ => bind (raiseIf _ _) fun _ => bind (seek _) fun _ => bind (ofExcept _) fun _ =>
      bind (writeCompressedChunk _ _) fun _ => bind (withSink _ _ _ (appendLoop _ _ _ _)) fun _ => bind (ofExcept _) fun _ =>
      bind (seek _) fun _ => bind (write _) fun _ => bind (seek _) fun _ => bind (writeOffsets _) fun _ => pure _

end Blind

theorem Logged.appendWrite (E : Env μ) (first : Int → Bytes) (source : Int → Int → Int → Int → List Bytes) (n : Int) (p : AppendPlan) :
    Logged id (appendWrite E first source n p) := by
  unfold Bloscpack.appendWrite
  dsimp only
  split
  · unfold squeezeIn
    exact bind (readOnly (.seek _)) fun _ => bind (ofExcept _) fun _ => bind (writeCompressedChunk _ _) fun _ =>
      bind (ofExcept _) fun _ => bind (readOnly (.seek _)) fun _ => bind (write _) fun _ => pure _
  · unfold growBy
    exact bind (ofExcept _) fun _ => bind (raiseIf _ _) fun _ => bind (readOnly (.seek _)) fun _ => bind (ofExcept _) fun _ =>
      bind (writeCompressedChunk _ _) fun _ => bind (withSink _ _ _ (appendLoop _ _ _ _)) fun _ => bind (ofExcept _) fun _ =>
      bind (readOnly (.seek _)) fun _ => bind (write _) fun _ => bind (readOnly (.seek _)) fun _ =>
      bind (writeOffsets _) fun _ => pure _

theorem ReadOnly.appendPlan (E : Env μ) (args : AppendArgs) : ReadOnly (appendPlan E args) := by
  unfold Bloscpack.appendPlan
  exact bind (readBeginning E) fun b => bind (ofExcept _) fun _ => bind (raiseIf _ _) fun _ =>
    bind (ofExcept _) fun _ => bind (ofExcept _) fun _ => bind (ofExcept _) fun _ => bind (seek _) fun _ =>
    bind (readCompressedChunk _) fun _ => bind (ofExcept _) fun d => pure _

/-- An append makes the same writes and has the same result whatever other processes do to the archive between its reading and its
writing. -/
theorem appendMeanwhile_run (E : Env μ) (new : Bytes) (args : AppendArgs) (d d' : Bytes) (r : Except Err Int) (fp : FP)
    (hrun : appendFp E { data := new } new.length args { data := d } = (r, fp)) :
    (appendMeanwhile E new args d d').1 = r ∧ (appendMeanwhile E new args d d').2.log = fp.log ∧
      (appendMeanwhile E new args d d').2.data = Spec.replay d' fp.log := by
  unfold appendFp at hrun
  rw [appendFrom_parts] at hrun
  have hro := ReadOnly.appendPlan E args { data := d }
  unfold appendMeanwhile
  change Proc.bind (appendPlan E args) _ _ = _ at hrun
  unfold Proc.bind at hrun
  generalize appendPlan E args { data := d } = q at hro hrun
  obtain ⟨x, f⟩ := q
  obtain ⟨h1, h2⟩ : f.data = d ∧ f.log = [] := hro
  cases x with
  | error e =>
    simp only [Prod.mk.injEq] at hrun ⊢
    obtain ⟨rfl, rfl⟩ := hrun
    exact ⟨rfl, rfl, by rw [h2]; rfl⟩
  | ok p =>
    simp only at hrun ⊢
    generalize hf : (fun n => (({ data := new } : FP).read n).1) = first at hrun ⊢
    generalize hs : (fun b cs lc k => (plainFPSource (({ data := new } : FP).read b).2 cs lc k).items) = source at hrun ⊢
    obtain ⟨h3, h4⟩ := Blind.appendWrite E first source new.length p f { f with data := d' } rfl
    obtain ⟨w, h5, h6⟩ := Logged.appendWrite E first source new.length p { f with data := d' }
    rw [hrun] at h3 h4
    have h7 : (appendWrite E first source new.length p { f with data := d' }).2.log = fp.log := by rw [h4]
    refine ⟨h3.symm, h7, ?_⟩
    have h8 : fp.log = w := h7.symm.trans (h5.trans (by show f.log ++ w = w; rw [h2, List.nil_append]))
    rw [h8]
    exact h6

/-! ### writes to different places -/

/-- a write to the `n` bytes from position `a` on -/
def Inside (a n : Nat) (w : Nat × Bytes) : Prop := a ≤ w.1 ∧ w.1 + w.2.length ≤ a + n
/-- a write before position `a` or beyond the `n` bytes from there on -/
def Outside (a n : Nat) (w : Nat × Bytes) : Prop := w.1 + w.2.length ≤ a ∨ a + n ≤ w.1

theorem overlay_inside {S : Bytes} {w : Nat × Bytes} {a : Nat} (h : Inside a S.length w) :
    ∃ S', S'.length = S.length ∧ ∀ A R : Bytes, A.length = a → overlay (A ++ (S ++ R)) w.1 w.2 = A ++ (S' ++ R) := by
  obtain ⟨p, bs⟩ := w
  obtain ⟨h1, h2⟩ := h
  simp only at h1 h2
  refine ⟨S.take (p - a) ++ (bs ++ S.drop (p - a + bs.length)), ?_, ?_⟩
  · simp; omega
  · rintro A R hA
    have e : A ++ (S ++ R) = (A ++ S.take (p - a)) ++ ((S.drop (p - a)) ++ R) := by
      rw [List.append_assoc, ← List.append_assoc (S.take _), List.take_append_drop]
    have hp : p = (A ++ S.take (p - a)).length := by simp; omega
    simp only
    rw [e]
    conv => lhs; arg 2; rw [hp]
    rw [overlay_append, List.drop_append, List.drop_drop]
    have : bs.length - (S.drop (p - a)).length = 0 := by simp; omega
    rw [this]
    simp

theorem overlay_outside {A R : Bytes} {w : Nat × Bytes} {n : Nat} (h : Outside A.length n w) :
    ∃ A' R', A'.length = A.length ∧ ∀ S : Bytes, S.length = n → overlay (A ++ (S ++ R)) w.1 w.2 = A' ++ (S ++ R') := by
  obtain ⟨p, bs⟩ := w
  by_cases hbs : bs = []
  · exact ⟨A, R, rfl, fun S _ => by simp [overlay, hbs]⟩
  rcases h with h | h
  · simp only at h
    refine ⟨A.take p ++ (bs ++ A.drop (p + bs.length)), R, ?_, ?_⟩
    · simp; omega
    · rintro S -
      have hp : p = (A.take p).length := by simp; omega
      have e : A ++ (S ++ R) = A.take p ++ (A.drop p ++ (S ++ R)) := by rw [← List.append_assoc (A.take _), List.take_append_drop]
      simp only
      rw [e]
      conv => lhs; arg 2; rw [hp]
      rw [overlay_append, List.drop_append, List.drop_drop]
      have : bs.length - (A.drop p).length = 0 := by simp; omega
      rw [this]
      simp
  · simp only at h
    refine ⟨A, R.take (p - (A.length + n)) ++ (List.replicate (p - (A.length + n) - R.length) 0 ++ (bs ++ R.drop (p - (A.length + n) + bs.length))), rfl, ?_⟩
    rintro S hS
    unfold overlay
    simp only [hbs, if_false]
    subst hS
    rw [← List.append_assoc A S R, List.take_append, List.take_of_length_le (by simp; omega), List.drop_append,
      List.drop_of_length_le (by simp; omega)]
    have e1 : p - (A ++ S ++ R).length = p - (A.length + S.length) - R.length := by simp; omega
    have e2 : p + bs.length - (A ++ S).length = p - (A.length + S.length) + bs.length := by simp; omega
    rw [e1, e2]
    simp

/-- two processes that write to different places do not disturb each other -/
theorem interleaved_apart {a b l : List (Nat × Bytes)} (hi : Spec.Interleaved a b l) {A S R : Bytes}
    (ha : ∀ w ∈ a, Outside A.length S.length w) (hb : ∀ w ∈ b, Inside A.length S.length w) :
    ∃ A' S' R', A'.length = A.length ∧ S'.length = S.length ∧
      (∀ S0 : Bytes, S0.length = S.length → Spec.replay (A ++ (S0 ++ R)) a = A' ++ (S0 ++ R')) ∧
      (∀ A0 R0 : Bytes, A0.length = A.length → Spec.replay (A0 ++ (S ++ R0)) b = A0 ++ (S' ++ R0)) ∧
      Spec.replay (A ++ (S ++ R)) l = A' ++ (S' ++ R') := by
  induction hi generalizing A S R with
  | done => exact ⟨A, S, R, rfl, rfl, fun _ _ => rfl, fun _ _ _ => rfl, rfl⟩
  | left w hi ih =>
    obtain ⟨A1, R1, h1, h2⟩ := overlay_outside (R := R) (ha w (by simp))
    obtain ⟨A', S', R', g1, g2, g3, g4, g5⟩ := ih (A := A1) (S := S) (R := R1) (fun v hv => by rw [h1]; exact ha v (by simp [hv]))
      (fun v hv => by rw [h1]; exact hb v hv)
    refine ⟨A', S', R', g1.trans h1, g2, fun S0 hS0 => ?_, fun A0 R0 hA0 => g4 A0 R0 (hA0.trans h1.symm), ?_⟩
    · show Spec.replay (overlay _ w.1 w.2) _ = _
      rw [h2 S0 hS0]; exact g3 S0 hS0
    · show Spec.replay (overlay _ w.1 w.2) _ = _
      rw [h2 S rfl]; exact g5
  | right w hi ih =>
    obtain ⟨S1, h1, h2⟩ := overlay_inside (hb w (by simp))
    obtain ⟨A', S', R', g1, g2, g3, g4, g5⟩ := ih (A := A) (S := S1) (R := R) (fun v hv => by rw [h1]; exact ha v hv)
      (fun v hv => by rw [h1]; exact hb v (by simp [hv]))
    refine ⟨A', S', R', g1, g2.trans h1, fun S0 hS0 => g3 S0 (hS0.trans h1.symm), fun A0 R0 hA0 => ?_, ?_⟩
    · show Spec.replay (overlay _ w.1 w.2) _ = _
      rw [h2 A0 R0 hA0]; exact g4 A0 R0 hA0
    · show Spec.replay (overlay _ w.1 w.2) _ = _
      rw [h2 A R rfl]; exact g5

end Bloscpack
